/-
C146: averaging channels in two steps.
-/
import Verif.Averaging.PropsId

set_option autoImplicit false

namespace Verif.Averaging

open Function

/-! ### Sums over samples in two steps -/

/-- The samples used in one step are those used in two, when a sample of the first step is flagged if all its samples are. -/
private theorem sum_two {M : Type*} [AddCommMonoid M] (flag flag1 : Option (Nat → Nat → Nat → Nat)) (C : Finset Nat)
    (o nchan n1 co fo : Nat) (m m1 m2 : Nat → Nat) (hm : ∀ f < nchan, m f = m2 (m1 f)) (hin : ∀ f < nchan, m1 f < n1)
    (hfl : ∀ g < n1, sampleFlagged flag1 o g co ↔ ∀ p ∈ C ×ˢ fibre nchan m1 g, sampleFlagged flag p.1 p.2 co)
    (x : Nat × Nat → M) :
    ∑ p ∈ usedSamples flag (C ×ˢ fibre nchan m fo) co, x p =
      ∑ q ∈ usedSamples flag1 ({o} ×ˢ fibre n1 m2 fo) co, ∑ p ∈ usedSamples flag (C ×ˢ fibre nchan m1 q.2) co, x p := by
  classical
  have hmemB : ∀ p : Nat × Nat, p ∈ C ×ˢ fibre nchan m fo ↔ p.1 ∈ C ∧ p.2 < nchan ∧ m2 (m1 p.2) = fo := by
    intro p
    simp only [Finset.mem_product, fibre, Finset.mem_filter, Finset.mem_range]
    constructor
    · rintro ⟨a, b, c⟩; exact ⟨a, b, by rw [← hm _ b]; exact c⟩
    · rintro ⟨a, b, c⟩; exact ⟨a, b, by rw [hm _ b]; exact c⟩
  have hmem1 : ∀ g (p : Nat × Nat), p ∈ C ×ˢ fibre nchan m1 g ↔ p.1 ∈ C ∧ p.2 < nchan ∧ m1 p.2 = g := by
    intro g p
    simp only [Finset.mem_product, fibre, Finset.mem_filter, Finset.mem_range]
  have hmem2 : ∀ q : Nat × Nat, q ∈ ({o} : Finset Nat) ×ˢ fibre n1 m2 fo ↔ q.1 = o ∧ q.2 < n1 ∧ m2 q.2 = fo := by
    intro q
    simp only [Finset.mem_product, fibre, Finset.mem_filter, Finset.mem_range, Finset.mem_singleton]
  have hall : (∀ p ∈ C ×ˢ fibre nchan m fo, sampleFlagged flag p.1 p.2 co) ↔
      ∀ q ∈ ({o} : Finset Nat) ×ˢ fibre n1 m2 fo, sampleFlagged flag1 q.1 q.2 co := by
    constructor
    · intro h q hq
      obtain ⟨e1, e2, e3⟩ := (hmem2 q).1 hq
      rw [e1, hfl _ e2]
      intro p hp
      obtain ⟨a, b, c⟩ := (hmem1 _ p).1 hp
      exact h p ((hmemB p).2 ⟨a, b, by rw [c, e3]⟩)
    · intro h p hp
      obtain ⟨a, b, c⟩ := (hmemB p).1 hp
      exact (hfl _ (hin _ b)).1 (h (o, m1 p.2) ((hmem2 _).2 ⟨rfl, hin _ b, c⟩)) p ((hmem1 _ p).2 ⟨a, b, rfl⟩)
  have hmaps : ∀ p ∈ usedSamples flag (C ×ˢ fibre nchan m fo) co,
      (o, m1 p.2) ∈ usedSamples flag1 ({o} ×ˢ fibre n1 m2 fo) co := by
    intro p hp
    unfold usedSamples at hp ⊢
    by_cases hA : ∀ p ∈ C ×ˢ fibre nchan m fo, sampleFlagged flag p.1 p.2 co
    · rw [if_pos hA] at hp
      rw [if_pos (hall.1 hA)]
      obtain ⟨a, b, c⟩ := (hmemB p).1 hp
      exact (hmem2 _).2 ⟨rfl, hin _ b, c⟩
    · rw [if_neg hA] at hp
      rw [if_neg (fun h => hA (hall.2 h))]
      rw [Finset.mem_filter] at hp ⊢
      obtain ⟨a, b, c⟩ := (hmemB p).1 hp.1
      refine ⟨(hmem2 _).2 ⟨rfl, hin _ b, c⟩, fun hf => hp.2 ?_⟩
      exact (hfl _ (hin _ b)).1 hf p ((hmem1 _ p).2 ⟨a, b, rfl⟩)
  rw [← Finset.sum_fiberwise_of_maps_to hmaps]
  refine Finset.sum_congr rfl fun q hq => Finset.sum_congr ?_ fun _ _ => rfl
  have hq2 : q.1 = o ∧ q.2 < n1 ∧ m2 q.2 = fo := by
    unfold usedSamples at hq
    split at hq
    · exact (hmem2 q).1 hq
    · exact (hmem2 q).1 (Finset.mem_filter.1 hq).1
  obtain ⟨q1, q2⟩ := q
  simp only at hq2
  obtain ⟨rfl, e2, e3⟩ := hq2
  ext p
  rw [Finset.mem_filter]
  simp only [Prod.mk.injEq, true_and]
  unfold usedSamples at hq ⊢
  by_cases hA : ∀ p ∈ C ×ˢ fibre nchan m fo, sampleFlagged flag p.1 p.2 co
  · rw [if_pos hA, if_pos, hmemB, hmem1]
    · constructor
      · rintro ⟨⟨a, b, c⟩, d⟩; exact ⟨a, b, d⟩
      · rintro ⟨a, b, d⟩; exact ⟨⟨a, b, by rw [d, e3]⟩, d⟩
    · intro p hp
      obtain ⟨a, b, c⟩ := (hmem1 _ p).1 hp
      exact hA p ((hmemB p).2 ⟨a, b, by rw [c, e3]⟩)
  · rw [if_neg (fun h => hA (hall.2 h)), Finset.mem_filter] at hq
    rw [if_neg hA, if_neg (fun h => hq.2 ((hfl _ e2).2 h)), Finset.mem_filter, Finset.mem_filter, hmemB, hmem1]
    constructor
    · rintro ⟨⟨⟨a, b, c⟩, k⟩, d⟩; exact ⟨⟨a, b, d⟩, k⟩
    · rintro ⟨⟨a, b, d⟩, k⟩; exact ⟨⟨⟨a, b, by rw [d, e3]⟩, k⟩, d⟩

private theorem used_subset (flag : Option (Nat → Nat → Nat → Nat)) (B : Finset (Nat × Nat)) (co : Nat) :
    usedSamples flag B co ⊆ B := by
  unfold usedSamples
  split
  · exact Finset.Subset.refl _
  · exact Finset.filter_subset _ _

section
variable {K : Type*} [Field K] [DecidableEq K]

/-- Which columns are absent. -/
private theorem rowChan_absent {sqrt : K → K} {n nchan ncorr outChans : Nat} {rm : RowMapOutput} {flagRow : Option (Nat → Nat)}
    {cm : Nat → Nat} {cols : CubeCols K} {out : RowChanAverageOutput K}
    (h : rowChanAverage sqrt n nchan ncorr rm flagRow cm outChans cols = .ok out) :
    (cols.flag = none → out.flag = none) ∧ (cols.vis = none → out.vis = none) ∧
    (cols.weightSpectrum = none → out.weightSpectrum = none) ∧ (cols.sigmaSpectrum = none → out.sigmaSpectrum = none) := by
  unfold rowChanAverage at h
  simp only at h
  split at h
  · cases h
  · cases h
    refine ⟨fun h => ?_, fun h => ?_, fun h => ?_, fun h => ?_⟩ <;> simp [h]

/-- Channels of two steps are those of one. -/
private theorem chan_two {nchan a b : Nat} (ha : 1 ≤ a) (hb : 1 ≤ b) :
    (channelMapper (channelMapper nchan a).2 b).2 = (channelMapper nchan (a * b)).2 ∧
    ∀ f < nchan, (channelMapper nchan (a * b)).1 f = (channelMapper (channelMapper nchan a).2 b).1 ((channelMapper nchan a).1 f) := by
  have hab : 1 ≤ a * b := Nat.one_le_iff_ne_zero.2 (Nat.mul_ne_zero (by omega) (by omega))
  obtain ⟨a1, a2, a3, a4⟩ := C01_channel_map nchan a ha
  obtain ⟨b1, b2, b3, b4⟩ := C01_channel_map (channelMapper nchan a).2 b hb
  obtain ⟨c1, c2, c3, c4⟩ := C01_channel_map nchan (a * b) hab
  have hmap : ∀ f < nchan, (channelMapper nchan (a * b)).1 f =
      (channelMapper (channelMapper nchan a).2 b).1 ((channelMapper nchan a).1 f) := by
    intro f hf
    rw [c1 f hf, b1 _ (a3 f hf), a1 f hf, Nat.div_div_eq_div_mul]
  refine ⟨?_, hmap⟩
  have h1 : ∀ o, o < (channelMapper (channelMapper nchan a).2 b).2 ↔ o < (channelMapper nchan (a * b)).2 := by
    intro o
    constructor
    · intro ho
      obtain ⟨g, hg, e⟩ := b4 o ho
      obtain ⟨f, hf, e'⟩ := a4 g hg
      rw [← e, ← e', ← hmap f hf]
      exact c3 f hf
    · intro ho
      obtain ⟨f, hf, e⟩ := c4 o ho
      rw [← e, hmap f hf]
      exact b3 _ (a3 f hf)
  have := h1 (channelMapper (channelMapper nchan a).2 b).2
  have := h1 (channelMapper nchan (a * b)).2
  omega

variable {n : Nat} {time interval : Nat → ℚ} {ant1 ant2 : Nat → Int} {flagRow : Option (Nat → Nat)} {secs sentinel : ℚ}
  {rm : RowMapOutput}

set_option maxHeartbeats 1000000 in
/-- C146. Averaging over `a` channels (and over time), and then the result over `b` channels with no further averaging of rows,
gives the flags, weights, visibilities and sigmas of averaging over `a * b` channels at once, provided that weights of samples are
given and that a sum of weights vanishes only when all of them do (weights are not negative). -/
theorem C146_samples (sqrt : K → K) (nchan ncorr a b : Nat) (ha : 1 ≤ a) (hb : 1 ≤ b) (cols : CubeCols K)
    (ws : Nat → Nat → Nat → K) (hws : cols.weightSpectrum = some ws)
    (hpos : ∀ co < ncorr, ∀ S : Finset (Nat × Nat), ∑ p ∈ S, ws p.1 p.2 co = 0 → ∀ p ∈ S, ws p.1 p.2 co = 0)
    (h32 : ∀ r < n, IsInt32 (ant1 r)) (hsent : ∀ r < n, time r < sentinel) (h01 : ZeroOne n flagRow)
    (h : rowMapper sentinel n time interval ant1 ant2 flagRow secs = .ok rm)
    (ant1' ant2' : Nat → Int) (secs' : ℚ) (rm' : RowMapOutput) (h32' : ∀ r < rm.outRows, IsInt32 (ant1' r))
    (h' : rowMapper sentinel rm.outRows rm.time rm.interval ant1' ant2' rm.flagRow secs' = .ok rm')
    (hrows : rm'.outRows = rm.outRows) :
    ∃ one first second, rowChanAverage sqrt n nchan ncorr rm flagRow (channelMapper nchan (a * b)).1
        (channelMapper nchan (a * b)).2 cols = .ok one ∧
      rowChanAverage sqrt n nchan ncorr rm flagRow (channelMapper nchan a).1 (channelMapper nchan a).2 cols = .ok first ∧
      rowChanAverage sqrt rm.outRows (channelMapper nchan a).2 ncorr rm' rm.flagRow
        (channelMapper (channelMapper nchan a).2 b).1 (channelMapper (channelMapper nchan a).2 b).2
        ⟨none, first.vis, first.flag, first.weightSpectrum, first.sigmaSpectrum⟩ = .ok second ∧
      (channelMapper (channelMapper nchan a).2 b).2 = (channelMapper nchan (a * b)).2 ∧
      Set.BijOn rm'.map (Set.Iio rm.outRows) (Set.Iio rm.outRows) ∧
      ∀ o < rm.outRows, ∀ fo < (channelMapper nchan (a * b)).2, ∀ co < ncorr,
        second.flag.map (· (rm'.map o) fo co) = one.flag.map (· o fo co) ∧
        second.weightSpectrum.map (· (rm'.map o) fo co) = one.weightSpectrum.map (· o fo co) ∧
        second.vis.map (· (rm'.map o) fo co) = one.vis.map (· o fo co) ∧
        ((∀ x, sqrt x ^ 2 = x) →
          second.sigmaSpectrum.map (· (rm'.map o) fo co) = one.sigmaSpectrum.map (· o fo co)) := by
  have hab : 1 ≤ a * b := Nat.one_le_iff_ne_zero.2 (Nat.mul_ne_zero (by omega) (by omega))
  have hsent' : ∀ o < rm.outRows, rm.time o < sentinel := by
    intro o ho
    obtain ⟨e0, e1, _⟩ := C03_time_mean_interval_sum h32 hsent h o ho
    have hc : (0 : ℚ) < (fibre n rm.map o).card := by exact_mod_cast e0
    rw [e1, div_lt_iff₀ hc]
    have : ∑ r ∈ fibre n rm.map o, time r < ∑ _r ∈ fibre n rm.map o, sentinel :=
      Finset.sum_lt_sum_of_nonempty (Finset.card_pos.1 e0) fun r hr =>
        hsent r (Finset.mem_range.1 (Finset.mem_filter.1 hr).1)
    rw [Finset.sum_const, nsmul_eq_mul, mul_comm] at this
    exact this
  have h01' : ZeroOne rm.outRows rm.flagRow := by
    intro f hf o ho
    cases hfr : flagRow with
    | none => rw [(C05_flag_conjunction h32 hsent h).1 hfr] at hf; cases hf
    | some f0 =>
      obtain ⟨g, hg, hgo⟩ := (C05_flag_conjunction h32 hsent h).2 f0 hfr
      rw [hg] at hf
      cases hf
      exact (hgo o ho).1
  have hok := (rowMapOK_of_ok h32 hsent h).2
  have hok' := (rowMapOK_of_ok h32' hsent' h').2
  have hbij : Set.BijOn rm'.map (Set.Iio rm.outRows) (Set.Iio rm.outRows) := by
    have hm : Set.MapsTo rm'.map (Finset.range rm.outRows : Set Nat) (Finset.range rm.outRows : Set Nat) := by
      intro o ho
      have := hok'.inRange o (by simpa using ho)
      rw [hrows] at this
      simpa using this
    have hs : Set.SurjOn rm'.map (Finset.range rm.outRows : Set Nat) (Finset.range rm.outRows : Set Nat) := by
      intro o ho
      obtain ⟨r, hr, e⟩ := hok'.onto o (by rw [hrows]; simpa using ho)
      exact ⟨r, by simpa using hr, e⟩
    have hi := Finset.injOn_of_surjOn_of_card_le rm'.map hm hs le_rfl
    have e : (Finset.range rm.outRows : Set Nat) = Set.Iio rm.outRows := by ext x; simp
    rw [e] at hm hs hi
    exact ⟨hm, hi, hs⟩
  obtain ⟨hch, hcm⟩ := chan_two (nchan := nchan) ha hb
  obtain ⟨one, e1, g1⟩ := rowChan_main sqrt nchan ncorr (a * b) cols h32 hsent h01 hab h
  obtain ⟨first, e2, g2⟩ := rowChan_main sqrt nchan ncorr a cols h32 hsent h01 ha h
  obtain ⟨second, e3, g3⟩ := rowChan_main sqrt (channelMapper nchan a).2 ncorr b
    ⟨none, first.vis, first.flag, first.weightSpectrum, first.sigmaSpectrum⟩ h32' hsent' h01' hb h'
  refine ⟨one, first, second, e1, e2, e3, hch, hbij, fun o ho fo hfo co hco => ?_⟩
  obtain ⟨_, _, hin, _⟩ := C01_channel_map nchan a ha
  have hlt : rm'.map o < rm'.outRows := hok'.inRange o ho
  have q1 := g1 o ho fo hfo co hco _ rfl _ rfl _ rfl
  have q3 := g3 _ hlt fo (by rw [hch]; exact hfo) co hco _ rfl _ rfl _ rfl
  have q2 := fun g hg => g2 o ho g hg co hco _ rfl _ rfl _ rfl
  obtain ⟨n1, n2, n3, n4⟩ := rowChan_absent e1
  obtain ⟨k1, k2, k3, k4⟩ := rowChan_absent e2
  obtain ⟨l1, l2, l3, l4⟩ := rowChan_absent e3
  simp only at q3 l1 l2 l3 l4
  have hbin3 : binSamples rm.outRows (channelMapper nchan a).2 rm'.map rm.flagRow (channelMapper (channelMapper nchan a).2 b).1
      (rm'.map o) fo = {o} ×ˢ fibre (channelMapper nchan a).2 (channelMapper (channelMapper nchan a).2 b).1 fo := by
    unfold binSamples
    rw [contributors_self hbij ho]
  rw [hbin3] at q3
  simp only [binSamples] at q1 q2
  set C := contributors n rm.map flagRow o with hCdef
  set n1' := (channelMapper nchan a).2 with hn1
  -- the weights of the first step
  obtain ⟨W, hW⟩ : ∃ W, first.weightSpectrum = some W := by
    have hf0 : 0 < n1' := by
      obtain ⟨p, hp⟩ := q3.1
      have := (Finset.mem_filter.1 (Finset.mem_product.1 hp).2).1
      rw [Finset.mem_range] at this
      omega
    obtain ⟨W, hW, _⟩ := (q2 0 hf0).2.2.2.2.1 ws hws
    exact ⟨W, hW⟩
  have hWv : ∀ g < n1', W o g co = ∑ p ∈ usedSamples cols.flag (C ×ˢ fibre nchan (channelMapper nchan a).1 g) co, ws p.1 p.2 co := by
    intro g hg
    obtain ⟨W', hW', e⟩ := (q2 g hg).2.2.2.2.1 ws hws
    rw [hW] at hW'
    cases hW'
    exact e
  have hflag : ∀ g < n1', sampleFlagged first.flag o g co ↔
      ∀ p ∈ C ×ˢ fibre nchan (channelMapper nchan a).1 g, sampleFlagged cols.flag p.1 p.2 co := by
    intro g hg
    cases hfl : cols.flag with
    | none =>
      rw [k1 hfl]
      obtain ⟨p, hp⟩ := (q2 g hg).1
      exact ⟨fun hh => hh.elim, fun hh => hh p hp⟩
    | some fl =>
      obtain ⟨F, hF, d1, d2⟩ := (q2 g hg).2.2.2.1 fl hfl
      rw [hF]
      show F o g co ≠ 0 ↔ ∀ p ∈ C ×ˢ fibre nchan (channelMapper nchan a).1 g, fl p.1 p.2 co ≠ 0
      rw [← d2]
      omega
  have hsum : ∀ x : Nat × Nat → K,
      ∑ p ∈ usedSamples cols.flag (C ×ˢ fibre nchan (channelMapper nchan (a * b)).1 fo) co, x p =
      ∑ q ∈ usedSamples first.flag ({o} ×ˢ fibre n1' (channelMapper n1' b).1 fo) co,
        ∑ p ∈ usedSamples cols.flag (C ×ˢ fibre nchan (channelMapper nchan a).1 q.2) co, x p := fun x =>
    sum_two cols.flag first.flag C o nchan n1' co fo _ _ _ hcm hin hflag x
  have hmem : ∀ q ∈ usedSamples first.flag ({o} ×ˢ fibre n1' (channelMapper n1' b).1 fo) co, q.1 = o ∧ q.2 < n1' := by
    intro q hq
    have := used_subset _ _ _ hq
    simp only [Finset.mem_product, Finset.mem_singleton, fibre, Finset.mem_filter, Finset.mem_range] at this
    exact ⟨this.1, this.2.1⟩
  rw [hws] at q1 q2
  rw [hW] at q3
  simp only [sampleWt] at q1 q2 q3
  -- the total of the weights
  have hWsum : ∑ q ∈ usedSamples first.flag ({o} ×ˢ fibre n1' (channelMapper n1' b).1 fo) co, W q.1 q.2 co =
      ∑ p ∈ usedSamples cols.flag (C ×ˢ fibre nchan (channelMapper nchan (a * b)).1 fo) co, ws p.1 p.2 co := by
    rw [hsum]
    refine Finset.sum_congr rfl fun q hq => ?_
    obtain ⟨e, hl⟩ := hmem q hq
    rw [e, hWv _ hl]
  have hzero : (∀ p ∈ usedSamples cols.flag (C ×ˢ fibre nchan (channelMapper nchan (a * b)).1 fo) co, ws p.1 p.2 co = 0) →
      ∀ q ∈ usedSamples first.flag ({o} ×ˢ fibre n1' (channelMapper n1' b).1 fo) co, W q.1 q.2 co = 0 := by
    intro hz1 q hq
    obtain ⟨e, hl⟩ := hmem q hq
    rw [e, hWv _ hl]
    refine Finset.sum_eq_zero fun p hp => ?_
    have hz2 := sum_two cols.flag first.flag C o nchan n1' co fo _ _ _ hcm hin hflag
      (fun p => if ws p.1 p.2 co = 0 then (0 : Nat) else 1)
    rw [Finset.sum_eq_zero (fun p hp => if_pos (hz1 p hp)), eq_comm, Finset.sum_eq_zero_iff] at hz2
    have hz3 := hz2 q hq
    rw [Finset.sum_eq_zero_iff] at hz3
    have hz4 := hz3 p hp
    by_contra hne
    rw [if_neg hne] at hz4
    exact Nat.one_ne_zero hz4
  refine ⟨?_, ?_, ?_, ?_⟩
  · cases hfl : cols.flag with
    | none => rw [n1 hfl, l1 (k1 hfl)]; rfl
    | some fl =>
      obtain ⟨p, hp⟩ := q3.1
      obtain ⟨_, hpl, hpf⟩ : p.1 = o ∧ p.2 < n1' ∧ True := by
        simp only [Finset.mem_product, Finset.mem_singleton, fibre, Finset.mem_filter, Finset.mem_range] at hp
        exact ⟨hp.1, hp.2.1, trivial⟩
      obtain ⟨F, hF, _⟩ := (q2 p.2 hpl).2.2.2.1 fl hfl
      obtain ⟨G, hG, d1, d2⟩ := q3.2.2.2.1 F hF
      obtain ⟨H, hH, c1, c2⟩ := q1.2.2.2.1 fl hfl
      rw [hG, hH]
      simp only [Option.map_some, Option.some.injEq]
      have key : (∀ q ∈ ({o} : Finset Nat) ×ˢ fibre n1' (channelMapper n1' b).1 fo, F q.1 q.2 co ≠ 0) ↔
          ∀ p ∈ C ×ˢ fibre nchan (channelMapper nchan (a * b)).1 fo, fl p.1 p.2 co ≠ 0 := by
        have hflag' : ∀ g < n1', F o g co ≠ 0 ↔ ∀ p ∈ C ×ˢ fibre nchan (channelMapper nchan a).1 g, fl p.1 p.2 co ≠ 0 := by
          intro g hg
          have := hflag g hg
          rw [hF, hfl] at this
          exact this
        constructor
        · intro hh p hp
          simp only [Finset.mem_product, fibre, Finset.mem_filter, Finset.mem_range] at hp
          refine (hflag' _ (hin _ hp.2.1)).1 (hh (o, (channelMapper nchan a).1 p.2) ?_) p ?_
          · simp only [Finset.mem_product, fibre, Finset.mem_filter, Finset.mem_range, Finset.mem_singleton, true_and]
            exact ⟨hin _ hp.2.1, by rw [← hcm _ hp.2.1]; exact hp.2.2⟩
          · simp only [Finset.mem_product, fibre, Finset.mem_filter, Finset.mem_range]
            exact ⟨hp.1, hp.2.1, trivial⟩
        · intro hh q hq
          simp only [Finset.mem_product, fibre, Finset.mem_filter, Finset.mem_range, Finset.mem_singleton] at hq
          rw [hq.1, hflag' _ hq.2.1]
          intro p hp
          simp only [Finset.mem_product, fibre, Finset.mem_filter, Finset.mem_range] at hp
          refine hh p ?_
          simp only [Finset.mem_product, fibre, Finset.mem_filter, Finset.mem_range]
          exact ⟨hp.1, hp.2.1, by rw [hcm _ hp.2.1, hp.2.2, hq.2.2]⟩
      rw [key, ← c2] at d2
      omega
  · obtain ⟨A, hA, ea⟩ := q3.2.2.2.2.1 W rfl
    obtain ⟨B, hB, eb⟩ := q1.2.2.2.2.1 ws rfl
    rw [hA, hB]
    simp only [Option.map_some, Option.some.injEq]
    rw [ea, eb, hWsum]
  · cases hv : cols.vis with
    | none => rw [n2 hv, l2 (k2 hv)]; rfl
    | some v =>
      obtain ⟨p, hp⟩ := q3.1
      have hpl : p.2 < n1' := by
        simp only [Finset.mem_product, Finset.mem_singleton, fibre, Finset.mem_filter, Finset.mem_range] at hp
        exact hp.2.1
      obtain ⟨V, hV, _⟩ := (q2 p.2 hpl).2.2.1 v hv
      have hVv : ∀ g < n1', V o g co * W o g co =
          ∑ p ∈ usedSamples cols.flag (C ×ˢ fibre nchan (channelMapper nchan a).1 g) co, v p.1 p.2 co * ws p.1 p.2 co := by
        intro g hg
        obtain ⟨V', hV', d1, d2⟩ := (q2 g hg).2.2.1 v hv
        rw [hV] at hV'
        cases hV'
        rw [hWv g hg]
        by_cases hz : ∑ p ∈ usedSamples cols.flag (C ×ˢ fibre nchan (channelMapper nchan a).1 g) co, ws p.1 p.2 co = 0
        · rw [hz, mul_zero]
          refine (Finset.sum_eq_zero fun p hp => ?_).symm
          rw [hpos co hco _ hz p hp, mul_zero]
        · rw [d1 hz, div_mul_cancel₀ _ hz]
      obtain ⟨A, hA, a1, a2⟩ := q3.2.2.1 V hV
      obtain ⟨B, hB, b1, b2⟩ := q1.2.2.1 v hv
      rw [hA, hB]
      simp only [Option.map_some, Option.some.injEq]
      rw [hWsum] at a1
      by_cases hz : ∑ p ∈ usedSamples cols.flag (C ×ˢ fibre nchan (channelMapper nchan (a * b)).1 fo) co, ws p.1 p.2 co = 0
      · have hz1 := hpos co hco _ hz
        rw [b2 hz1, a2]
        exact hzero hz1
      · rw [a1 hz, b1 hz]
        congr 1
        rw [hsum]
        refine Finset.sum_congr rfl fun q hq => ?_
        obtain ⟨e, hl⟩ := hmem q hq
        rw [e, hVv _ hl]
  · intro hsq
    cases hv : cols.sigmaSpectrum with
    | none => rw [n4 hv, l4 (k4 hv)]; rfl
    | some sg =>
      obtain ⟨p, hp⟩ := q3.1
      have hpl : p.2 < n1' := by
        simp only [Finset.mem_product, Finset.mem_singleton, fibre, Finset.mem_filter, Finset.mem_range] at hp
        exact hp.2.1
      obtain ⟨V, hV, _⟩ := (q2 p.2 hpl).2.2.2.2.2 sg hv
      have hVv : ∀ g < n1', V o g co ^ 2 * W o g co ^ 2 =
          ∑ p ∈ usedSamples cols.flag (C ×ˢ fibre nchan (channelMapper nchan a).1 g) co, sg p.1 p.2 co ^ 2 * ws p.1 p.2 co ^ 2 := by
        intro g hg
        obtain ⟨V', hV', d1, d2⟩ := (q2 g hg).2.2.2.2.2 sg hv
        rw [hV] at hV'
        cases hV'
        rw [hWv g hg]
        by_cases hz : ∑ p ∈ usedSamples cols.flag (C ×ˢ fibre nchan (channelMapper nchan a).1 g) co, ws p.1 p.2 co = 0
        · rw [hz, zero_pow two_ne_zero, mul_zero]
          refine (Finset.sum_eq_zero fun p hp => ?_).symm
          rw [hpos co hco _ hz p hp, zero_pow two_ne_zero, mul_zero]
        · rw [d1 hz, hsq, div_mul_cancel₀ _ (pow_ne_zero 2 hz)]
      obtain ⟨A, hA, a1, a2⟩ := q3.2.2.2.2.2 V hV
      obtain ⟨B, hB, b1, b2⟩ := q1.2.2.2.2.2 sg hv
      rw [hA, hB]
      simp only [Option.map_some, Option.some.injEq]
      rw [hWsum] at a1
      by_cases hz : ∑ p ∈ usedSamples cols.flag (C ×ˢ fibre nchan (channelMapper nchan (a * b)).1 fo) co, ws p.1 p.2 co = 0
      · have hz1 := hpos co hco _ hz
        rw [b2 hz1, a2]
        exact hzero hz1
      · rw [a1 hz, b1 hz]
        congr 2
        rw [hsum]
        refine Finset.sum_congr rfl fun q hq => ?_
        obtain ⟨e, hl⟩ := hmem q hq
        rw [e, hVv _ hl]

end

/-- Weights that are not negative meet the hypothesis of `C146_samples`. -/
example (ws : Nat → Nat → Nat → ℚ) (h : ∀ r f c, 0 ≤ ws r f c) (co : Nat) (S : Finset (Nat × Nat))
    (hs : ∑ p ∈ S, ws p.1 p.2 co = 0) : ∀ p ∈ S, ws p.1 p.2 co = 0 :=
  (Finset.sum_eq_zero_iff_of_nonneg fun p _ => h p.1 p.2 co).1 hs

/-- One row, and a second call for the row that results. -/
example : ∃ rm rm', rowMapper 1000 1 (fun _ => 0) (fun _ => 1) (fun _ => 0) (fun _ => 1) none 2 = .ok rm ∧ rm.outRows = 1 ∧
    rowMapper 1000 rm.outRows rm.time rm.interval (fun _ => 0) (fun _ => 1) rm.flagRow 1 = .ok rm' ∧
    rm'.outRows = rm.outRows := by
  have h : (match rowMapper 1000 1 (fun _ => 0) (fun _ => 1) (fun _ => 0) (fun _ => 1) none 2 with
    | .error _ => none
    | .ok rm => match rowMapper 1000 rm.outRows rm.time rm.interval (fun _ => 0) (fun _ => 1) rm.flagRow 1 with
      | .error _ => none
      | .ok rm' => some (rm.outRows, rm'.outRows)) = some (1, 1) := by decide +kernel
  split at h
  · cases h
  · rename_i rm h1
    split at h
    · cases h
    · rename_i rm' h2
      simp only [Option.some.injEq, Prod.mk.injEq] at h
      exact ⟨rm, rm', h1, h.1, h2, by rw [h.1, h.2]⟩

/-- C146 is violated for visibilities without weights of samples: what the first call averages over fewer samples, because some
were flagged, counts as much in the second call. One row, four channels of which the first is flagged: 4 at once, 3 in two steps. -/
theorem C146_unweighted_violated : ∃ (vis : Nat → Nat → Nat → ℚ) (flag : Nat → Nat → Nat → Nat) (rm : RowMapOutput)
    (one first second : RowChanAverageOutput ℚ),
    rowMapper 1000 1 (fun _ => 0) (fun _ => 1) (fun _ => 0) (fun _ => 1) none 1 = .ok rm ∧
    rowChanAverage id 1 4 1 rm none (channelMapper 4 4).1 (channelMapper 4 4).2 ⟨none, some vis, some flag, none, none⟩ = .ok one ∧
    rowChanAverage id 1 4 1 rm none (channelMapper 4 2).1 (channelMapper 4 2).2 ⟨none, some vis, some flag, none, none⟩ =
      .ok first ∧
    rowChanAverage id 1 2 1 rm none (channelMapper 2 2).1 (channelMapper 2 2).2
      ⟨none, first.vis, first.flag, first.weightSpectrum, first.sigmaSpectrum⟩ = .ok second ∧
    one.vis.map (· 0 0 0) = some 4 ∧ second.vis.map (· 0 0 0) = some 3 := by
  have h : (match rowMapper 1000 1 (fun _ => 0) (fun _ => 1) (fun _ => 0) (fun _ => 1) none 1 with
    | .error _ => none
    | .ok rm => match rowChanAverage id 1 4 1 rm none (channelMapper 4 4).1 (channelMapper 4 4).2
          ⟨none, some fun _ f _ => [9, 0, 6, 6].getD f (0 : ℚ), some fun _ f _ => [1, 0, 0, 0].getD f 0, none, none⟩ with
      | .error _ => none
      | .ok one => match rowChanAverage id 1 4 1 rm none (channelMapper 4 2).1 (channelMapper 4 2).2
            ⟨none, some fun _ f _ => [9, 0, 6, 6].getD f (0 : ℚ), some fun _ f _ => [1, 0, 0, 0].getD f 0, none, none⟩ with
        | .error _ => none
        | .ok first => match rowChanAverage id 1 2 1 rm none (channelMapper 2 2).1 (channelMapper 2 2).2
              ⟨none, first.vis, first.flag, first.weightSpectrum, first.sigmaSpectrum⟩ with
          | .error _ => none
          | .ok second => some (one.vis.map (· 0 0 0), second.vis.map (· 0 0 0))) = some (some 4, some 3) := by
    decide +kernel
  split at h
  · cases h
  · rename_i rm h1
    split at h
    · cases h
    · rename_i one h2
      split at h
      · cases h
      · rename_i first h3
        split at h
        · cases h
        · rename_i second h4
          simp only [Option.some.injEq, Prod.mk.injEq] at h
          exact ⟨_, _, rm, one, first, second, h1, h2, h3, h4, h.1, h.2⟩

private theorem fibre_two {M : Type*} [AddCommMonoid M] {nchan a b o : Nat} (ha : 1 ≤ a) (x : Nat → M) :
    ∑ f ∈ (Finset.range nchan).filter (fun f => f / (a * b) = o), x f =
      ∑ g ∈ (Finset.range ((nchan + a - 1) / a)).filter (fun g => g / b = o),
        ∑ f ∈ (Finset.range nchan).filter (fun f => f / a = g), x f := by
  have hmaps : ∀ f ∈ (Finset.range nchan).filter (fun f => f / (a * b) = o),
      f / a ∈ (Finset.range ((nchan + a - 1) / a)).filter (fun g => g / b = o) := by
    intro f hf
    simp only [Finset.mem_filter, Finset.mem_range] at hf ⊢
    refine ⟨?_, by rw [Nat.div_div_eq_div_mul]; exact hf.2⟩
    rw [Nat.lt_iff_add_one_le, Nat.le_div_iff_mul_le (by omega)]
    have := Nat.div_mul_le_self f a
    rw [Nat.add_mul]; omega
  rw [← Finset.sum_fiberwise_of_maps_to hmaps]
  refine Finset.sum_congr rfl fun g hg => Finset.sum_congr ?_ fun _ _ => rfl
  ext f
  simp only [Finset.mem_filter, Finset.mem_range] at hg ⊢
  constructor
  · rintro ⟨⟨h1, _⟩, h2⟩; exact ⟨h1, h2⟩
  · rintro ⟨h1, h2⟩; exact ⟨⟨h1, by rw [← Nat.div_div_eq_div_mul, h2]; exact hg.2⟩, h2⟩

/-- C146, channels: widths, effective bandwidths and resolutions are those of one step; so are frequencies when the channels
divide into full bins in the first step. -/
theorem C146_channels_partial {K : Type*} [Field K] [DecidableEq K] [CharZero K] (nchan a b : Nat) (ha : 1 ≤ a) (hb : 1 ≤ b)
    (freq width bw res : Nat → K) (o : Nat) (ho : o < (nchan + a * b - 1) / (a * b)) :
    ∃ f1 w1 b1 r1 f2 w2 b2 r2 f3 w3 b3 r3,
      chanAverage nchan (channelMapper nchan (a * b)).1 (some freq) (some width) (some bw) (some res) =
        ⟨some f1, some w1, some b1, some r1⟩ ∧
      chanAverage nchan (channelMapper nchan a).1 (some freq) (some width) (some bw) (some res) =
        ⟨some f2, some w2, some b2, some r2⟩ ∧
      chanAverage (channelMapper nchan a).2 (channelMapper (channelMapper nchan a).2 b).1 (some f2) (some w2) (some b2) (some r2) =
        ⟨some f3, some w3, some b3, some r3⟩ ∧
      w3 o = w1 o ∧ b3 o = b1 o ∧ r3 o = r1 o ∧ (a ∣ nchan → f3 o = f1 o) := by
  have hab : 1 ≤ a * b := Nat.one_le_iff_ne_zero.2 (Nat.mul_ne_zero (by omega) (by omega))
  obtain ⟨hch, _⟩ := chan_two (nchan := nchan) ha hb
  obtain ⟨_, hn1, _, _⟩ := C01_channel_map nchan a ha
  obtain ⟨_, hn2, _, _⟩ := C01_channel_map (channelMapper nchan a).2 b hb
  obtain ⟨_, hn3, _, _⟩ := C01_channel_map nchan (a * b) hab
  obtain ⟨f1, w1, b1, r1, e1, c1, v1, v2, v3, v4⟩ := C17_chan_average nchan (a * b) hab freq width bw res o ho _ rfl
  obtain ⟨f2, w2, b2, r2, e2⟩ : ∃ f2 w2 b2 r2,
      chanAverage nchan (channelMapper nchan a).1 (some freq) (some width) (some bw) (some res) =
        ⟨some f2, some w2, some b2, some r2⟩ := ⟨_, _, _, _, rfl⟩
  have u : ∀ g < (nchan + a - 1) / a, f2 g = (∑ f ∈ (Finset.range nchan).filter (fun f => f / a = g), freq f) /
        ((Finset.range nchan).filter (fun f => f / a = g)).card ∧
      w2 g = ∑ f ∈ (Finset.range nchan).filter (fun f => f / a = g), width f ∧
      b2 g = ∑ f ∈ (Finset.range nchan).filter (fun f => f / a = g), bw f ∧
      r2 g = ∑ f ∈ (Finset.range nchan).filter (fun f => f / a = g), res f := by
    intro g hg
    obtain ⟨f2', w2', b2', r2', e2', _, t1, t2, t3, t4⟩ := C17_chan_average nchan a ha freq width bw res g hg _ rfl
    rw [e2] at e2'
    simp only [ChanAverageOutput.mk.injEq, Option.some.injEq] at e2'
    obtain ⟨rfl, rfl, rfl, rfl⟩ := e2'
    exact ⟨t1, t2, t3, t4⟩
  obtain ⟨f3, w3, b3, r3, e3, c3, t1, t2, t3, t4⟩ := C17_chan_average (channelMapper nchan a).2 b hb f2 w2 b2 r2 o
    (by rw [← hn2, hch, hn3]; exact ho) _ rfl
  rw [hn1] at t1 t2 t3 t4 c3
  have hG : ∀ g ∈ (Finset.range ((nchan + a - 1) / a)).filter (fun g => g / b = o), g < (nchan + a - 1) / a := fun g hg =>
    Finset.mem_range.1 (Finset.mem_filter.1 hg).1
  refine ⟨f1, w1, b1, r1, f2, w2, b2, r2, f3, w3, b3, r3, e1, e2, e3, ?_, ?_, ?_, ?_⟩
  · rw [t2, v2, fibre_two ha]
    exact Finset.sum_congr rfl fun g hg => (u g (hG g hg)).2.1
  · rw [t3, v3, fibre_two ha]
    exact Finset.sum_congr rfl fun g hg => (u g (hG g hg)).2.2.1
  · rw [t4, v4, fibre_two ha]
    exact Finset.sum_congr rfl fun g hg => (u g (hG g hg)).2.2.2
  · rintro ⟨k, rfl⟩
    have hcard : ∀ g < (a * k + a - 1) / a, ((Finset.range (a * k)).filter (fun f => f / a = g)).card = a := by
      intro g hg
      have hgk : g < k := by
        have : (a * k + a - 1) / a = k := by
          rw [Nat.add_sub_assoc ha, Nat.mul_add_div (by omega), Nat.div_eq_of_lt (by omega), Nat.add_zero]
        omega
      have : (Finset.range (a * k)).filter (fun f => f / a = g) = (Finset.range a).image (fun i => a * g + i) := by
        ext f
        simp only [Finset.mem_filter, Finset.mem_range, Finset.mem_image]
        constructor
        · rintro ⟨_, h2⟩
          refine ⟨f % a, Nat.mod_lt _ (by omega), ?_⟩
          rw [← h2]; exact Nat.div_add_mod f a
        · rintro ⟨i, hi, rfl⟩
          refine ⟨?_, by rw [Nat.mul_add_div (by omega), Nat.div_eq_of_lt hi, Nat.add_zero]⟩
          calc a * g + i < a * g + a := by omega
            _ = a * (g + 1) := by ring
            _ ≤ a * k := Nat.mul_le_mul_left _ hgk
      rw [this, Finset.card_image_of_injective _ (fun i j h => by simpa using h), Finset.card_range]
    have htot : ((Finset.range (a * k)).filter (fun f => f / (a * b) = o)).card =
        a * ((Finset.range ((a * k + a - 1) / a)).filter (fun g => g / b = o)).card := by
      have := fibre_two (M := Nat) (nchan := a * k) (a := a) (b := b) (o := o) ha (fun _ => 1)
      simp only [Finset.sum_const, smul_eq_mul, mul_one] at this
      rw [this, Finset.sum_congr rfl fun g hg => hcard g (hG g hg), Finset.sum_const, smul_eq_mul, Nat.mul_comm]
    have ha' : (a : K) ≠ 0 := Nat.cast_ne_zero.2 (by omega)
    rw [t1, v1, htot, fibre_two ha, Nat.cast_mul, ← div_div]
    congr 1
    rw [Finset.sum_div]
    refine Finset.sum_congr rfl fun g hg => ?_
    rw [(u g (hG g hg)).1, hcard g (hG g hg)]

/-- C146 is violated for frequencies otherwise: the mean of three channels at 0, 1 and 5 is 2, in two steps it is 11 / 4. -/
theorem C146_channels_violated : ∃ (freq first second one : Nat → ℚ),
    (chanAverage 3 (channelMapper 3 4).1 (some freq) none none none).chanFreq = some one ∧
    (chanAverage 3 (channelMapper 3 2).1 (some freq) none none none).chanFreq = some first ∧
    (chanAverage (channelMapper 3 2).2 (channelMapper (channelMapper 3 2).2 2).1 (some first) none none none).chanFreq =
      some second ∧ one 0 = 2 ∧ second 0 = 11 / 4 := by
  refine ⟨fun f => [0, 1, 5].getD f 0, _, _, _, rfl, rfl, rfl, ?_, ?_⟩ <;> decide +kernel

end Verif.Averaging
