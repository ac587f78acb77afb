/-
C134: averaging depends neither on the order of the rows nor on the unit and origin of time.
-/
import Verif.Averaging.LemmasSym
import Verif.Averaging.Props3

set_option autoImplicit false

namespace Verif.Averaging

open Function

section
variable {n : Nat} {time interval : Nat → ℚ} {ant1 ant2 : Nat → Int} {flagRow : Option (Nat → Nat)}
  {secs sentinel sentinel' a c : ℚ} {σ : Nat → Nat} {out out' : RowMapOutput}

private theorem bij_lt (hσ : Set.BijOn σ (Set.Iio n) (Set.Iio n)) {r : Nat} (hr : r < n) : σ r < n := hσ.mapsTo hr

private theorem bij_inj (hσ : Set.BijOn σ (Set.Iio n) (Set.Iio n)) {r q : Nat} (hr : r < n) (hq : q < n) :
    σ r = σ q ↔ r = q := ⟨fun h => hσ.injOn hr hq h, fun h => by rw [h]⟩

private theorem bij_onto (hσ : Set.BijOn σ (Set.Iio n) (Set.Iio n)) {r : Nat} (hr : r < n) : ∃ q < n, σ q = r := by
  obtain ⟨q, hq, h⟩ := hσ.surjOn hr
  exact ⟨q, hq, h⟩

/-- Rows share a bin in one table if they share a bin in the other. -/
private theorem same_bin (ha : 0 < a) (hσ : Set.BijOn σ (Set.Iio n) (Set.Iio n))
    (hok : RowMapOK n time interval ant1 ant2 flagRow secs sentinel out)
    (hok' : RowMapOK n (fun r => a * time (σ r) + c) (fun r => a * interval (σ r)) (fun r => ant1 (σ r))
      (fun r => ant2 (σ r)) (flagRow.map fun f r => f (σ r)) (a * secs) sentinel' out') :
    ∀ r < n, ∀ q < n, out'.map r = out'.map q ↔ out.map (σ r) = out.map (σ q) := by
  obtain ⟨blInv, timeInv, ntime, rl, hbl, ht, htl, hto, hrl, hmap⟩ := hok.bins
  obtain ⟨blInv', timeInv', ntime', rl', hbl', ht', htl', hto', hrl', hmap'⟩ := hok'.bins
  obtain ⟨hn, htime⟩ := numbering_unique (f := timeInv') (g := fun r => timeInv (σ r)) htl'
    (fun r hr => htl _ (bij_lt hσ hr)) hto'
    (fun o ho => by
      obtain ⟨r, hr, he⟩ := hto o ho
      obtain ⟨q, hq, rfl⟩ := bij_onto hσ hr
      exact ⟨q, hq, he⟩)
    (fun r hr q hq => by
      rw [ht' r hr q hq, ht _ (bij_lt hσ hr) _ (bij_lt hσ hq)]
      constructor
      · intro h
        exact (mul_lt_mul_iff_right₀ ha).1 (by linarith)
      · intro h
        have := (mul_lt_mul_iff_right₀ ha).2 h
        linarith)
  subst hn
  have hbb : ∀ r < n, ∀ q < n, blInv' r = blInv' q ↔ blInv (σ r) = blInv (σ q) := by
    intro r hr q hq
    rw [hbl' r hr q hq, hbl _ (bij_lt hσ hr) _ (bij_lt hσ hq)]
  have hrow : ∀ r < n, ∀ t < ntime', rl (blInv (σ r)) t = (rl' (blInv' r) t).map σ := by
    intro r hr t _
    cases h' : rl' (blInv' r) t with
    | some p =>
      obtain ⟨hp, hb, htt⟩ := (hrl' _ _ _).1 h'
      rw [Option.map_some, hrl]
      exact ⟨bij_lt hσ hp, (hbb p hp r hr).1 hb, by rw [← htt, htime p hp]⟩
    | none =>
      cases h : rl (blInv (σ r)) t with
      | none => rfl
      | some p =>
        exfalso
        obtain ⟨hp, hb, htt⟩ := (hrl _ _ _).1 h
        obtain ⟨q, hq, rfl⟩ := bij_onto hσ hp
        have := (hrl' (blInv' r) t q).2 ⟨hq, (hbb q hq r hr).2 hb, by rw [htime q hq, htt]⟩
        rw [h'] at this
        cases this
  intro r hr q hq
  rw [hmap' r hr q hq, hmap _ (bij_lt hσ hr) _ (bij_lt hσ hq), hbb r hr q hq, htime r hr, htime q hq,
    blLoop_moved (flagged := isFlagged flagRow) (sentinel := sentinel) ha (hrow r hr),
    blLoop_moved (flagged := isFlagged flagRow) (sentinel := sentinel) ha (hrow q hq)]

private theorem fibre_image (hσ : Set.BijOn σ (Set.Iio n) (Set.Iio n))
    (h : ∀ r < n, ∀ q < n, out'.map r = out'.map q ↔ out.map (σ r) = out.map (σ q)) {r : Nat} (hr : r < n) :
    fibre n out.map (out.map (σ r)) = (fibre n out'.map (out'.map r)).image σ := by
  ext p
  simp only [fibre, Finset.mem_filter, Finset.mem_range, Finset.mem_image]
  constructor
  · rintro ⟨hp, he⟩
    obtain ⟨q, hq, rfl⟩ := bij_onto hσ hp
    exact ⟨q, ⟨hq, (h q hq r hr).2 he⟩, rfl⟩
  · rintro ⟨q, ⟨hq, he⟩, rfl⟩
    exact ⟨bij_lt hσ hq, (h q hq r hr).1 he⟩

private theorem fibre_sum (hσ : Set.BijOn σ (Set.Iio n) (Set.Iio n))
    (h : ∀ r < n, ∀ q < n, out'.map r = out'.map q ↔ out.map (σ r) = out.map (σ q)) {r : Nat} (hr : r < n)
    {M : Type*} [AddCommMonoid M] (g : Nat → M) :
    ∑ p ∈ fibre n out.map (out.map (σ r)), g p = ∑ p ∈ fibre n out'.map (out'.map r), g (σ p) := by
  rw [fibre_image hσ h hr, Finset.sum_image]
  intro p hp q hq e
  simp only [fibre, Finset.coe_filter, Finset.mem_range, Set.mem_ofPred_eq] at hp hq
  exact (bij_inj hσ hp.1 hq.1).1 e

/-- C134. Averaging the rows in another order (row `r` of the second table is row `σ r` of the first), with times in another
unit and from another origin, gives the same bins in the same order: the same number of output rows, each made of the same
input rows, with the time and interval in the other unit and the same flag. The largest float is above all times in both
tables. -/
theorem C134_rows (h32 : ∀ r < n, IsInt32 (ant1 r)) (hsent : ∀ r < n, time r < sentinel)
    (hsent' : ∀ r < n, a * time r + c < sentinel') (ha : 0 < a) (hσ : Set.BijOn σ (Set.Iio n) (Set.Iio n))
    (h : rowMapper sentinel n time interval ant1 ant2 flagRow secs = .ok out) :
    ∃ out', rowMapper sentinel' n (fun r => a * time (σ r) + c) (fun r => a * interval (σ r)) (fun r => ant1 (σ r))
        (fun r => ant2 (σ r)) (flagRow.map fun f r => f (σ r)) (a * secs) = .ok out' ∧
      out'.outRows = out.outRows ∧ (∀ r < n, out'.map r = out.map (σ r)) ∧
      (∀ o < out.outRows, out'.time o = a * out.time o + c ∧ out'.interval o = a * out.interval o) ∧
      (∀ o < out.outRows, out'.flagRow.map (· o) = out.flagRow.map (· o)) := by
  obtain ⟨hdup, hok⟩ := rowMapOK_of_ok h32 hsent h
  obtain ⟨out', h', hok'⟩ := rowMapper_ok (n := n) (time := fun r => a * time (σ r) + c)
    (interval := fun r => a * interval (σ r)) (ant1 := fun r => ant1 (σ r)) (ant2 := fun r => ant2 (σ r))
    (flagRow := flagRow.map fun f r => f (σ r)) (secs := a * secs) (sentinel := sentinel')
    (fun r hr => h32 _ (bij_lt hσ hr)) (fun r hr => hsent' _ (bij_lt hσ hr))
    (fun r hr q hq h1 h2 h3 => (bij_inj hσ hr hq).1 (hdup _ (bij_lt hσ hr) _ (bij_lt hσ hq)
      (mul_left_cancel₀ ha.ne' (add_right_cancel h1)) h2 h3))
  refine ⟨out', h', ?_⟩
  have hsame := same_bin ha hσ hok hok'
  have hcard : ∀ r < n, (fibre n out'.map (out'.map r)).card = (fibre n out.map (out.map (σ r))).card := by
    intro r hr
    rw [Finset.card_eq_sum_ones, Finset.card_eq_sum_ones, fibre_sum hσ hsame hr]
  have htime : ∀ r < n, out'.time (out'.map r) = a * out.time (out.map (σ r)) + c := by
    intro r hr
    obtain ⟨hp, e, _⟩ := C03_time_mean_interval_sum h32 hsent h _ (hok.inRange _ (bij_lt hσ hr))
    have e' : out'.time (out'.map r) = (∑ p ∈ fibre n out'.map (out'.map r), (a * time (σ p) + c)) /
      (fibre n out'.map (out'.map r)).card := hok'.time_ok _ (hok'.inRange r hr)
    rw [e', e, hcard r hr, fibre_sum hσ hsame hr, Finset.sum_add_distrib, ← Finset.mul_sum, Finset.sum_const,
      nsmul_eq_mul, hcard r hr]
    have : ((fibre n out.map (out.map (σ r))).card : ℚ) ≠ 0 := by exact_mod_cast hp.ne'
    field_simp
  have hlt : ∀ r < n, ∀ q < n, out'.map r < out'.map q ↔ out.map (σ r) < out.map (σ q) := by
    have one : ∀ r < n, ∀ q < n, out'.map r < out'.map q → out.map (σ r) < out.map (σ q) := by
      intro r hr q hq hlt
      have ho := hok'.order r hr q hq hlt
      rw [htime r hr, htime q hq] at ho
      rcases Nat.lt_trichotomy (out.map (σ r)) (out.map (σ q)) with hc | hc | hc
      · exact hc
      · have := (hsame r hr q hq).2 hc
        omega
      · exfalso
        have ho2 := hok.order _ (bij_lt hσ hq) _ (bij_lt hσ hr) hc
        rcases ho with ho | ⟨ho, hp⟩
        · have h1 := (mul_lt_mul_iff_right₀ ha).1 (by linarith : a * out.time (out.map (σ r)) < a * out.time (out.map (σ q)))
          rcases ho2 with h2 | ⟨h2, _⟩ <;> linarith
        · have h1 := mul_left_cancel₀ ha.ne' (add_right_cancel ho)
          rcases ho2 with h2 | ⟨_, h2⟩
          · linarith
          · exact absurd h2 (not_lt.2 hp.le)
    intro r hr q hq
    refine ⟨one r hr q hq, fun hc => ?_⟩
    rcases Nat.lt_trichotomy (out'.map r) (out'.map q) with hd | hd | hd
    · exact hd
    · have := (hsame r hr q hq).1 hd
      omega
    · have := one q hq r hr hd
      omega
  obtain ⟨hrows, hmap⟩ := numbering_unique (f := out'.map) (g := fun r => out.map (σ r)) hok'.inRange
    (fun r hr => hok.inRange _ (bij_lt hσ hr)) hok'.onto
    (fun o ho => by
      obtain ⟨r, hr, he⟩ := hok.onto o ho
      obtain ⟨q, hq, rfl⟩ := bij_onto hσ hr
      exact ⟨q, hq, he⟩) hlt
  have hrep : ∀ o < out.outRows, ∃ r < n, out'.map r = o ∧ out.map (σ r) = o := by
    intro o ho
    obtain ⟨r, hr, he⟩ := hok'.onto o (by omega)
    exact ⟨r, hr, he, by rw [← he]; exact (hmap r hr).symm⟩
  refine ⟨hrows, hmap, ?_, ?_⟩
  · intro o ho
    obtain ⟨r, hr, e1, e2⟩ := hrep o ho
    constructor
    · rw [← e1, htime r hr, e1, e2]
    · obtain ⟨_, _, e⟩ := C03_time_mean_interval_sum h32 hsent h _ ho
      have e' : out'.interval o = ∑ p ∈ fibre n out'.map o, a * interval (σ p) := hok'.int_ok o (by omega)
      rw [e', e, ← e2, fibre_sum hσ hsame hr, e2, e1, Finset.mul_sum]
  · intro o ho
    cases hf : flagRow with
    | none =>
      rw [hok.flag_none hf, hok'.flag_none (by rw [hf]; rfl)]
    | some f =>
      obtain ⟨g, hg, hgo⟩ := hok.flag_ok f hf
      obtain ⟨g', hg', hgo'⟩ := hok'.flag_ok (fun r => f (σ r)) (by rw [hf]; rfl)
      rw [hg, hg']
      obtain ⟨a1, a0⟩ := hgo o ho
      obtain ⟨b1, b0⟩ := hgo' o (by omega)
      simp only [Option.map_some, Option.some.injEq]
      by_cases hall : ∀ r < n, out.map r = o → f r ≠ 0
      · rw [a1 hall, b1 fun r hr he => hall _ (bij_lt hσ hr) (by rw [← hmap r hr]; exact he)]
      · push Not at hall
        obtain ⟨p, hp, he, hz⟩ := hall
        obtain ⟨q, hq, rfl⟩ := bij_onto hσ hp
        rw [a0 ⟨_, hp, he, hz⟩, b0 ⟨q, hq, by rw [hmap q hq]; exact he, hz⟩]

/-- C134, exceptions: they are the same. -/
theorem C134_error (e : PyErr) (h32 : ∀ r < n, IsInt32 (ant1 r)) (hsent : ∀ r < n, time r < sentinel)
    (hσ : Set.BijOn σ (Set.Iio n) (Set.Iio n))
    (h : rowMapper sentinel n time interval ant1 ant2 flagRow secs = .error e) :
    rowMapper sentinel' n (fun r => a * time (σ r) + c) (fun r => a * interval (σ r)) (fun r => ant1 (σ r))
      (fun r => ant2 (σ r)) (flagRow.map fun f r => f (σ r)) (a * secs) = .error e := by
  have he := C06_no_other_error n time interval ant1 ant2 flagRow secs sentinel h32 hsent e h
  subst he
  rw [C06_value_error_iff_duplicate n time interval ant1 ant2 flagRow secs sentinel h32 hsent] at h
  obtain ⟨r, hr, q, hq, hne, h1, h2, h3⟩ := h
  obtain ⟨r, hr', rfl⟩ := bij_onto hσ hr
  obtain ⟨q, hq', rfl⟩ := bij_onto hσ hq
  refine rowMapper_dup fun hd => hne ?_
  rw [hd r hr' q hq' (by simp only; rw [h1]) h2 h3]

/-- Averaged rows are in the order of their times, those of the same time in the order of the second antenna, then the
first. -/
theorem C04_ties (h32 : ∀ r < n, IsInt32 (ant1 r)) (hsent : ∀ r < n, time r < sentinel)
    (h : rowMapper sentinel n time interval ant1 ant2 flagRow secs = .ok out) (hpos : ∀ r < n, 0 ≤ ant1 r)
    (r q : Nat) (hr : r < n) (hq : q < n) (hlt : out.map r < out.map q) :
    out.time (out.map r) < out.time (out.map q) ∨ (out.time (out.map r) = out.time (out.map q) ∧
      (ant2 r < ant2 q ∨ (ant2 r = ant2 q ∧ ant1 r < ant1 q))) := by
  rcases (rowMapOK_of_ok h32 hsent h).2.order r hr q hq hlt with ho | ⟨h1, h2⟩
  · exact Or.inl ho
  · refine Or.inr ⟨h1, ?_⟩
    have a1 := h32 r hr
    have a2 := h32 q hq
    have a3 := hpos r hr
    have a4 := hpos q hq
    unfold IsInt32 at a1 a2
    unfold pack32 at h2
    omega


/-! ### Columns -/

/-- The columns of a table whose row `r` is row `σ r` of the given one. -/
def RowCols.reorder {K : Type*} (cols : RowCols K) (σ : Nat → Nat) : RowCols K :=
  { timeCentroid := cols.timeCentroid.map fun x r => x (σ r)
    exposure := cols.exposure.map fun x r => x (σ r)
    uvw := cols.uvw.map fun x r => x (σ r)
    weight := cols.weight.map fun x r => x (σ r)
    sigma := cols.sigma.map fun x r => x (σ r) }

/-- The samples of a table whose row `r` is row `σ r` of the given one. -/
def CubeCols.reorder {K : Type*} (cols : CubeCols K) (σ : Nat → Nat) : CubeCols K :=
  { weight := cols.weight.map fun x r => x (σ r)
    vis := cols.vis.map fun x r => x (σ r)
    flag := cols.flag.map fun x r => x (σ r)
    weightSpectrum := cols.weightSpectrum.map fun x r => x (σ r)
    sigmaSpectrum := cols.sigmaSpectrum.map fun x r => x (σ r) }

private theorem rowFlagged_map (flagRow : Option (Nat → Nat)) (σ : Nat → Nat) (r : Nat) :
    rowFlagged (flagRow.map fun f r => f (σ r)) r ↔ rowFlagged flagRow (σ r) := by
  cases flagRow <;> exact Iff.rfl

private theorem contributors_image (hσ : Set.BijOn σ (Set.Iio n) (Set.Iio n)) {m m' : Nat → Nat}
    (h : ∀ r < n, m' r = m (σ r)) (flagRow : Option (Nat → Nat)) (o : Nat) :
    contributors n m flagRow o = (contributors n m' (flagRow.map fun f r => f (σ r)) o).image σ := by
  have hmem : ∀ r < n, (r ∈ fibre n m' o ↔ σ r ∈ fibre n m o) := by
    intro r hr
    simp only [fibre, Finset.mem_filter, Finset.mem_range]
    rw [h r hr]
    exact ⟨fun h => ⟨bij_lt hσ hr, h.2⟩, fun h => ⟨hr, h.2⟩⟩
  have hr' : ∀ r ∈ fibre n m' o, r < n := fun r hr => by simpa using (Finset.mem_filter.1 hr).1
  have hr : ∀ r ∈ fibre n m o, r < n := fun r hr => by simpa using (Finset.mem_filter.1 hr).1
  have hall : (∀ r ∈ fibre n m o, rowFlagged flagRow r) ↔
      ∀ r ∈ fibre n m' o, rowFlagged (flagRow.map fun f r => f (σ r)) r := by
    constructor
    · intro ha r hm
      rw [rowFlagged_map]
      exact ha _ ((hmem r (hr' r hm)).1 hm)
    · intro ha r hm
      obtain ⟨q, hq, rfl⟩ := bij_onto hσ (hr r hm)
      rw [← rowFlagged_map]
      exact ha q ((hmem q hq).2 hm)
  ext p
  unfold contributors
  rw [Finset.mem_image]
  by_cases hc : ∀ r ∈ fibre n m o, rowFlagged flagRow r
  · rw [if_pos hc, if_pos (hall.1 hc)]
    constructor
    · intro hp
      obtain ⟨q, hq, rfl⟩ := bij_onto hσ (hr p hp)
      exact ⟨q, (hmem q hq).2 hp, rfl⟩
    · rintro ⟨q, hq, rfl⟩
      exact (hmem q (hr' q hq)).1 hq
  · rw [if_neg hc, if_neg (fun h => hc (hall.2 h))]
    simp only [Finset.mem_filter]
    constructor
    · rintro ⟨hp, hf⟩
      obtain ⟨q, hq, rfl⟩ := bij_onto hσ (hr p hp)
      exact ⟨q, ⟨(hmem q hq).2 hp, by rw [rowFlagged_map]; exact hf⟩, rfl⟩
    · rintro ⟨q, ⟨hq, hf⟩, rfl⟩
      exact ⟨(hmem q (hr' q hq)).1 hq, by rw [← rowFlagged_map]; exact hf⟩

private theorem contributors_lt {m : Nat → Nat} {flagRow : Option (Nat → Nat)} {o r : Nat}
    (h : r ∈ contributors n m flagRow o) : r < n := by
  unfold contributors at h
  split at h
  · simpa using (Finset.mem_filter.1 h).1
  · simpa using (Finset.mem_filter.1 (Finset.mem_filter.1 h).1).1

private theorem contributors_sum (hσ : Set.BijOn σ (Set.Iio n) (Set.Iio n)) {m m' : Nat → Nat}
    (h : ∀ r < n, m' r = m (σ r)) (flagRow : Option (Nat → Nat)) (o : Nat) {M : Type*} [AddCommMonoid M] (g : Nat → M) :
    ∑ p ∈ contributors n m flagRow o, g p =
      ∑ p ∈ contributors n m' (flagRow.map fun f r => f (σ r)) o, g (σ p) := by
  rw [contributors_image hσ h, Finset.sum_image]
  intro p hp q hq e
  exact (bij_inj hσ (contributors_lt hp) (contributors_lt hq)).1 e

private theorem sampleFlagged_map (flag : Option (Nat → Nat → Nat → Nat)) (σ : Nat → Nat) (r f c : Nat) :
    sampleFlagged (flag.map fun x r => x (σ r)) r f c ↔ sampleFlagged flag (σ r) f c := by
  cases flag <;> exact Iff.rfl

private theorem binSamples_image (hσ : Set.BijOn σ (Set.Iio n) (Set.Iio n)) {m m' : Nat → Nat}
    (h : ∀ r < n, m' r = m (σ r)) (flagRow : Option (Nat → Nat)) (nchan : Nat) (cm : Nat → Nat) (o fo : Nat) :
    binSamples n nchan m flagRow cm o fo =
      (binSamples n nchan m' (flagRow.map fun f r => f (σ r)) cm o fo).image (Prod.map σ id) := by
  unfold binSamples
  rw [contributors_image hσ h]
  ext ⟨p, f⟩
  simp only [Finset.mem_product, Finset.mem_image, Prod.exists, Prod.map_apply, id, Prod.mk.injEq]
  constructor
  · rintro ⟨⟨q, hq, rfl⟩, hf⟩
    exact ⟨q, f, ⟨hq, hf⟩, rfl, rfl⟩
  · rintro ⟨q, f', ⟨hq, hf⟩, rfl, rfl⟩
    exact ⟨⟨q, hq, rfl⟩, hf⟩

private theorem used_image (flag : Option (Nat → Nat → Nat → Nat)) (σ : Nat → Nat) (S : Finset (Nat × Nat)) (c : Nat) :
    usedSamples flag (S.image (Prod.map σ id)) c =
      (usedSamples (flag.map fun x r => x (σ r)) S c).image (Prod.map σ id) := by
  have hall : (∀ p ∈ S.image (Prod.map σ id), sampleFlagged flag p.1 p.2 c) ↔
      ∀ p ∈ S, sampleFlagged (flag.map fun x r => x (σ r)) p.1 p.2 c := by
    constructor
    · intro h p hp
      rw [sampleFlagged_map]
      exact h _ (Finset.mem_image_of_mem _ hp)
    · intro h p hp
      obtain ⟨q, hq, rfl⟩ := Finset.mem_image.1 hp
      exact (sampleFlagged_map flag σ q.1 q.2 c).1 (h q hq)
  unfold usedSamples
  by_cases hc : ∀ p ∈ S.image (Prod.map σ id), sampleFlagged flag p.1 p.2 c
  · rw [if_pos hc, if_pos (hall.1 hc)]
  · rw [if_neg hc, if_neg (fun h => hc (hall.2 h))]
    ext p
    simp only [Finset.mem_filter, Finset.mem_image]
    constructor
    · rintro ⟨⟨q, hq, rfl⟩, hf⟩
      exact ⟨q, ⟨hq, fun hx => hf ((sampleFlagged_map flag σ q.1 q.2 c).1 hx)⟩, rfl⟩
    · rintro ⟨q, ⟨hq, hf⟩, rfl⟩
      exact ⟨⟨q, hq, rfl⟩, fun hx => hf ((sampleFlagged_map flag σ q.1 q.2 c).2 hx)⟩

private theorem used_sub {flag : Option (Nat → Nat → Nat → Nat)} {S : Finset (Nat × Nat)} {c : Nat} {p : Nat × Nat}
    (h : p ∈ usedSamples flag S c) : p ∈ S := by
  unfold usedSamples at h
  split at h
  · exact h
  · exact (Finset.mem_filter.1 h).1

private theorem used_sum (hσ : Set.BijOn σ (Set.Iio n) (Set.Iio n)) {m m' : Nat → Nat}
    (h : ∀ r < n, m' r = m (σ r)) (flagRow : Option (Nat → Nat)) (flag : Option (Nat → Nat → Nat → Nat)) (nchan : Nat)
    (cm : Nat → Nat) (o fo co : Nat) {M : Type*} [AddCommMonoid M] (g : Nat → Nat → M) :
    ∑ p ∈ usedSamples flag (binSamples n nchan m flagRow cm o fo) co, g p.1 p.2 =
      ∑ p ∈ usedSamples (flag.map fun x r => x (σ r))
        (binSamples n nchan m' (flagRow.map fun f r => f (σ r)) cm o fo) co, g (σ p.1) p.2 := by
  rw [binSamples_image hσ h, used_image, Finset.sum_image]
  · rfl
  · rintro ⟨p, f⟩ hp ⟨q, f'⟩ hq e
    have h1 := (Finset.mem_product.1 (used_sub hp)).1
    have h2 := (Finset.mem_product.1 (used_sub hq)).1
    simp only [Prod.map_apply, id, Prod.mk.injEq] at e
    exact Prod.ext ((bij_inj hσ (contributors_lt h1) (contributors_lt h2)).1 e.1) e.2

private theorem zeroOne_map (hσ : Set.BijOn σ (Set.Iio n) (Set.Iio n)) (h01 : ZeroOne n flagRow) :
    ZeroOne n (flagRow.map fun f r => f (σ r)) := by
  intro f hf r hr
  cases hfr : flagRow with
  | none => rw [hfr] at hf; cases hf
  | some g =>
    rw [hfr] at hf
    cases hf
    exact h01 g hfr _ (bij_lt hσ hr)

variable {K : Type*} [Field K] [DecidableEq K]

/-- C134, columns of rows: the averaged columns are the same whatever the order of the rows. -/
theorem C134_columns (sqrt : K → K) (junk junk' : Nat → Int) (cols : RowCols K) (ncorr : Nat)
    (h32 : ∀ r < n, IsInt32 (ant1 r)) (hsent : ∀ r < n, time r < sentinel)
    (hsent' : ∀ r < n, a * time r + c < sentinel') (ha : 0 < a) (hσ : Set.BijOn σ (Set.Iio n) (Set.Iio n))
    (h01 : ZeroOne n flagRow)
    (h : rowMapper sentinel n time interval ant1 ant2 flagRow secs = .ok out)
    (h' : rowMapper sentinel' n (fun r => a * time (σ r) + c) (fun r => a * interval (σ r)) (fun r => ant1 (σ r))
        (fun r => ant2 (σ r)) (flagRow.map fun f r => f (σ r)) (a * secs) = .ok out')
    (avg avg' : RowAverageOutput K)
    (havg : avg = rowAverage sqrt junk n out flagRow ant1 ant2 cols ncorr)
    (havg' : avg' = rowAverage sqrt junk' n out' (flagRow.map fun f r => f (σ r)) (fun r => ant1 (σ r))
      (fun r => ant2 (σ r)) (cols.reorder σ) ncorr) (o : Nat) (ho : o < out.outRows) :
    avg'.ant1 o = avg.ant1 o ∧ avg'.ant2 o = avg.ant2 o ∧
    avg'.timeCentroid.map (· o) = avg.timeCentroid.map (· o) ∧
    avg'.exposure.map (· o) = avg.exposure.map (· o) ∧
    (∀ k < 3, avg'.uvw.map (· o k) = avg.uvw.map (· o k)) ∧
    (∀ k < ncorr, avg'.weight.map (· o k) = avg.weight.map (· o k)) ∧
    (∀ k < ncorr, ∑ r ∈ contributors n out.map flagRow o, rowWt cols.weight r k ≠ 0 →
      avg'.sigma.map (· o k) = avg.sigma.map (· o k)) := by
  obtain ⟨out2, e2, hrows, hmap, _⟩ := C134_rows h32 hsent hsent' ha hσ h
  rw [h'] at e2
  cases e2
  have h32' : ∀ r < n, IsInt32 (ant1 (σ r)) := fun r hr => h32 _ (bij_lt hσ hr)
  have hs' : ∀ r < n, a * time (σ r) + c < sentinel' := fun r hr => hsent' _ (bij_lt hσ hr)
  have h01' := zeroOne_map hσ h01
  obtain ⟨_, p1, p2, p3, p4, p5⟩ := C11_row_average sqrt junk cols ncorr h32 hsent h01 h avg havg o ho _ rfl
  obtain ⟨_, q1, q2, q3, q4, q5⟩ := C11_row_average sqrt junk' (cols.reorder σ) ncorr h32' hs' h01' h' avg' havg' o
    (by omega) _ rfl
  have hcard : (contributors n out'.map (flagRow.map fun f r => f (σ r)) o).card =
      (contributors n out.map flagRow o).card := by
    rw [Finset.card_eq_sum_ones, Finset.card_eq_sum_ones, contributors_sum hσ hmap]
  have hant : avg'.ant1 o = avg.ant1 o ∧ avg'.ant2 o = avg.ant2 o := by
    obtain ⟨r, hr, he⟩ := (rowMapOK_of_ok h32' hs' h').2.onto o (by omega)
    obtain ⟨x1, x2⟩ := q5 r hr he
    obtain ⟨y1, y2⟩ := p5 (σ r) (bij_lt hσ hr) (by rw [← hmap r hr]; exact he)
    exact ⟨x1.trans y1.symm, x2.trans y2.symm⟩
  refine ⟨hant.1, hant.2, ?_, ?_, ?_, ?_, ?_⟩
  · cases hx : cols.timeCentroid with
    | none => rw [havg, havg']; simp [rowAverage, RowCols.reorder, hx]
    | some t =>
      obtain ⟨z, hz, ez⟩ := p2 t hx
      obtain ⟨z', hz', ez'⟩ := q2 (fun r => t (σ r)) (by simp [RowCols.reorder, hx])
      rw [hz, hz', Option.map_some, Option.map_some, ez, ez', hcard, contributors_sum hσ hmap]
  · cases hx : cols.exposure with
    | none => rw [havg, havg']; simp [rowAverage, RowCols.reorder, hx]
    | some t =>
      obtain ⟨z, hz, ez⟩ := p3 t hx
      obtain ⟨z', hz', ez'⟩ := q3 (fun r => t (σ r)) (by simp [RowCols.reorder, hx])
      rw [hz, hz', Option.map_some, Option.map_some, ez, ez', contributors_sum hσ hmap]
  · intro k hk
    cases hx : cols.uvw with
    | none => rw [havg, havg']; simp [rowAverage, RowCols.reorder, hx]
    | some t =>
      obtain ⟨z, hz, ez⟩ := p1 t hx
      obtain ⟨z', hz', ez'⟩ := q1 (fun r => t (σ r)) (by simp [RowCols.reorder, hx])
      rw [hz, hz', Option.map_some, Option.map_some, ez k hk, ez' k hk, hcard, contributors_sum hσ hmap]
  · intro k hk
    cases hx : cols.weight with
    | none => rw [havg, havg']; simp [rowAverage, RowCols.reorder, hx]
    | some t =>
      obtain ⟨z, hz, ez⟩ := p4 t hx
      obtain ⟨z', hz', ez'⟩ := q4 (fun r => t (σ r)) (by simp [RowCols.reorder, hx])
      rw [hz, hz', Option.map_some, Option.map_some, ez k hk, ez' k hk, contributors_sum hσ hmap]
  · intro k hk hw
    cases hx : cols.sigma with
    | none => rw [havg, havg']; simp [rowAverage, RowCols.reorder, hx]
    | some t =>
      have hwt : ∀ r, rowWt (cols.reorder σ).weight r k = rowWt cols.weight (σ r) k := by
        intro r
        unfold RowCols.reorder
        cases cols.weight <;> rfl
      obtain ⟨z, hz, ez, _⟩ := C13_sigma sqrt junk cols ncorr h32 hsent h01 h t hx o k ho hk _ rfl
      obtain ⟨z', hz', ez', _⟩ := C13_sigma sqrt junk' (cols.reorder σ) ncorr h32' hs' h01' h' (fun r => t (σ r))
        (by simp [RowCols.reorder, hx]) o k (by omega) hk _ rfl
      have hsum : ∑ r ∈ contributors n out.map flagRow o, rowWt cols.weight r k =
          ∑ r ∈ contributors n out'.map (flagRow.map fun f r => f (σ r)) o, rowWt (cols.reorder σ).weight r k := by
        rw [contributors_sum hσ hmap]
        exact Finset.sum_congr rfl fun r _ => (hwt r).symm
      rw [havg, havg', hz, hz', Option.map_some, Option.map_some, ez hw, ez' (by rw [← hsum]; exact hw), hsum,
        contributors_sum hσ hmap]
      simp only [hwt]

/-- C134, samples: the averaged visibilities, weights and flags are the same whatever the order of the rows. -/
theorem C134_samples (sqrt : K → K) (nchan ncorr bin : Nat) (cols : CubeCols K) (hb : 1 ≤ bin)
    (h32 : ∀ r < n, IsInt32 (ant1 r)) (hsent : ∀ r < n, time r < sentinel)
    (hsent' : ∀ r < n, a * time r + c < sentinel') (ha : 0 < a) (hσ : Set.BijOn σ (Set.Iio n) (Set.Iio n))
    (h01 : ZeroOne n flagRow)
    (h : rowMapper sentinel n time interval ant1 ant2 flagRow secs = .ok out)
    (h' : rowMapper sentinel' n (fun r => a * time (σ r) + c) (fun r => a * interval (σ r)) (fun r => ant1 (σ r))
        (fun r => ant2 (σ r)) (flagRow.map fun f r => f (σ r)) (a * secs) = .ok out')
    (o fo co : Nat) (ho : o < out.outRows) (hfo : fo < (channelMapper nchan bin).2) (hco : co < ncorr) :
    ∃ avg avg', rowChanAverage sqrt n nchan ncorr out flagRow (channelMapper nchan bin).1 (channelMapper nchan bin).2
        cols = .ok avg ∧
      rowChanAverage sqrt n nchan ncorr out' (flagRow.map fun f r => f (σ r)) (channelMapper nchan bin).1
        (channelMapper nchan bin).2 (cols.reorder σ) = .ok avg' ∧
      avg'.flag.map (· o fo co) = avg.flag.map (· o fo co) ∧
      avg'.weightSpectrum.map (· o fo co) = avg.weightSpectrum.map (· o fo co) ∧
      (∑ p ∈ usedSamples cols.flag (binSamples n nchan out.map flagRow (channelMapper nchan bin).1 o fo) co,
          sampleWt cols.weightSpectrum cols.weight p.1 p.2 co ≠ 0 →
        avg'.vis.map (· o fo co) = avg.vis.map (· o fo co) ∧
        avg'.sigmaSpectrum.map (· o fo co) = avg.sigmaSpectrum.map (· o fo co)) := by
  obtain ⟨out2, e2, hrows, hmap, _⟩ := C134_rows h32 hsent hsent' ha hσ h
  rw [h'] at e2
  cases e2
  have h32' : ∀ r < n, IsInt32 (ant1 (σ r)) := fun r hr => h32 _ (bij_lt hσ hr)
  have hs' : ∀ r < n, a * time (σ r) + c < sentinel' := fun r hr => hsent' _ (bij_lt hσ hr)
  have h01' := zeroOne_map hσ h01
  obtain ⟨avg, e, g⟩ := rowChan_main sqrt nchan ncorr bin cols h32 hsent h01 hb h
  obtain ⟨avg', e', g'⟩ := rowChan_main sqrt nchan ncorr bin (cols.reorder σ) h32' hs' h01' hb h'
  refine ⟨avg, avg', e, e', ?_⟩
  obtain ⟨_, _, p1, p2, p3, p4⟩ := g o ho fo hfo co hco _ rfl _ rfl _ rfl
  obtain ⟨_, _, q1, q2, q3, q4⟩ := g' o (by omega) fo hfo co hco _ rfl _ rfl _ rfl
  have hwt : ∀ r f, sampleWt (cols.reorder σ).weightSpectrum (cols.reorder σ).weight r f co =
      sampleWt cols.weightSpectrum cols.weight (σ r) f co := by
    intro r f
    unfold CubeCols.reorder
    cases cols.weightSpectrum <;> cases cols.weight <;> rfl
  have none_out : ∀ {rm fr cm oc} {cs : CubeCols K} {av}, rowChanAverage sqrt n nchan ncorr rm fr cm oc cs = .ok av →
      (cs.vis = none → av.vis = none) ∧ (cs.flag = none → av.flag = none) ∧
      (cs.weightSpectrum = none → av.weightSpectrum = none) ∧ (cs.sigmaSpectrum = none → av.sigmaSpectrum = none) := by
    intro rm fr cm oc cs av hav
    unfold rowChanAverage at hav
    simp only at hav
    split at hav
    · cases hav
    · cases hav
      refine ⟨?_, ?_, ?_, ?_⟩ <;> intro hx <;> simp [hx]
  have n1 := none_out e
  have n2 := none_out e'
  refine ⟨?_, ?_, ?_⟩
  · cases hx : cols.flag with
    | none => rw [n1.2.1 hx, n2.2.1 (by simp [CubeCols.reorder, hx])]
    | some fl =>
      obtain ⟨z, hz, z1, z2⟩ := p2 fl hx
      obtain ⟨z', hz', z1', z2'⟩ := q2 (fun r => fl (σ r)) (by simp [CubeCols.reorder, hx])
      rw [hz, hz', Option.map_some, Option.map_some, Option.some.injEq]
      have hiff : z' o fo co = 1 ↔ z o fo co = 1 := by
        rw [z2, z2', binSamples_image hσ hmap, Finset.forall_mem_image]
        rfl
      rcases z1 with z1 | z1 <;> rcases z1' with z1' | z1' <;> omega
  · cases hx : cols.weightSpectrum with
    | none => rw [n1.2.2.1 hx, n2.2.2.1 (by simp [CubeCols.reorder, hx])]
    | some ws =>
      obtain ⟨z, hz, ez⟩ := p3 ws hx
      obtain ⟨z', hz', ez'⟩ := q3 (fun r => ws (σ r)) (by simp [CubeCols.reorder, hx])
      rw [hz, hz', Option.map_some, Option.map_some, ez, ez', used_sum hσ hmap flagRow cols.flag nchan _ o fo co fun r f => ws r f co]
      rfl
  · intro hw
    have hsum := used_sum hσ hmap flagRow cols.flag nchan (channelMapper nchan bin).1 o fo co
      fun r f => sampleWt cols.weightSpectrum cols.weight r f co
    have hsum' : ∑ p ∈ usedSamples (cols.reorder σ).flag
        (binSamples n nchan out'.map (flagRow.map fun f r => f (σ r)) (channelMapper nchan bin).1 o fo) co,
          sampleWt (cols.reorder σ).weightSpectrum (cols.reorder σ).weight p.1 p.2 co =
        ∑ p ∈ usedSamples cols.flag (binSamples n nchan out.map flagRow (channelMapper nchan bin).1 o fo) co,
          sampleWt cols.weightSpectrum cols.weight p.1 p.2 co := by
      rw [hsum]
      exact Finset.sum_congr rfl fun p _ => hwt p.1 p.2
    have hw' := hsum'.symm ▸ hw
    constructor
    · cases hx : cols.vis with
      | none => rw [n1.1 hx, n2.1 (by simp [CubeCols.reorder, hx])]
      | some v =>
        obtain ⟨z, hz, ez, _⟩ := p1 v hx
        obtain ⟨z', hz', ez', _⟩ := q1 (fun r => v (σ r)) (by simp [CubeCols.reorder, hx])
        rw [hz, hz', Option.map_some, Option.map_some, ez hw, ez' hw', hsum',
          used_sum hσ hmap flagRow cols.flag nchan (channelMapper nchan bin).1 o fo co
            fun r f => v r f co * sampleWt cols.weightSpectrum cols.weight r f co]
        simp only [hwt]
        rfl
    · cases hx : cols.sigmaSpectrum with
      | none => rw [n1.2.2.2 hx, n2.2.2.2 (by simp [CubeCols.reorder, hx])]
      | some v =>
        obtain ⟨z, hz, ez, _⟩ := p4 v hx
        obtain ⟨z', hz', ez', _⟩ := q4 (fun r => v (σ r)) (by simp [CubeCols.reorder, hx])
        rw [hz, hz', Option.map_some, Option.map_some, ez hw, ez' hw', hsum',
          used_sum hσ hmap flagRow cols.flag nchan (channelMapper nchan bin).1 o fo co
            fun r f => v r f co ^ 2 * sampleWt cols.weightSpectrum cols.weight r f co ^ 2]
        simp only [hwt]
        rfl

end

/-- Four rows in another order, in milliseconds from another origin: the hypotheses of C134 hold. -/
example : let time : Nat → ℚ := fun r => [4, 0, 2, 0].getD r 0
    let ant2 : Nat → Int := fun r => [1, 1, 1, 2].getD r 0
    let σ : Nat → Nat := fun r => [2, 3, 0, 1].getD r r
    Set.BijOn σ (Set.Iio 4) (Set.Iio 4) ∧ (∀ r < 4, IsInt32 ((fun _ => 0 : Nat → Int) r)) ∧ (∀ r < 4, time r < 1000) ∧
    (∀ r < 4, 1000 * time r + 5 < (10 ^ 6 : ℚ)) ∧
    ∃ out, rowMapper 1000 4 time (fun _ => 2) (fun _ => 0) ant2 (some fun r => [0, 1, 0, 1].getD r 0) 4 = .ok out := by
  have h32 : ∀ r < 4, IsInt32 ((fun _ => 0 : Nat → Int) r) := by intro r _; unfold IsInt32; constructor <;> norm_num
  have hs : ∀ r < 4, (fun r => [4, 0, 2, 0].getD r 0 : Nat → ℚ) r < 1000 := by decide +kernel
  obtain ⟨out, h, _⟩ := rowMapper_ok (n := 4) (time := fun r => [4, 0, 2, 0].getD r 0) (interval := fun _ => 2)
    (ant1 := fun _ => 0) (ant2 := fun r => [1, 1, 1, 2].getD r 0) (flagRow := some fun r => [0, 1, 0, 1].getD r 0)
    (secs := 4) h32 hs (by unfold NoDup; decide +kernel)
  refine ⟨⟨?_, ?_, ?_⟩, h32, hs, by decide +kernel, out, h⟩
  · intro r hr
    have : ∀ r < 4, [2, 3, 0, 1].getD r r < 4 := by decide +kernel
    exact this r hr
  · intro r hr q hq he
    have : ∀ r < 4, ∀ q < 4, [2, 3, 0, 1].getD r r = [2, 3, 0, 1].getD q q → r = q := by decide +kernel
    exact this r hr q hq he
  · intro r hr
    have : ∀ r < 4, ∃ q < 4, [2, 3, 0, 1].getD q q = r := by decide +kernel
    exact this r hr

end Verif.Averaging
