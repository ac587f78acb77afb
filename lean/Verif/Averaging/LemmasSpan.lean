/-
Extent of the bins made by the per-baseline loop of `row_mapper`.
-/
import Verif.Averaging.LemmasRowMap2

set_option autoImplicit false

namespace Verif.Averaging

open Function

/-- Invariant: where bins start and what shares a bin, when lower edges do not decrease. -/
structure SpanInv (time interval : Nat → ℚ) (secs : ℚ) (rowOf : Nat → Option Nat)
    (T : Nat) (s : BlState) : Prop where
  low : ∀ t < T, ∀ r, rowOf t = some r → 0 < s.binCount ∧ s.binLow ≤ lowEdge time interval r
  first : 0 < s.binCount → ∃ t0 < T, ∃ r0, rowOf t0 = some r0 ∧ s.binLow = lowEdge time interval r0 ∧
    ∀ t < t0, rowOf t = none
  span : ∀ t' < T, ∀ t < t', ∀ r r', rowOf t = some r → rowOf t' = some r' →
    s.binLookup t = s.binLookup t' →
    highEdge time interval r' - s.binLow ≤ secs

theorem openBin_binLow {secs sentinel t half : ℚ} {s : BlState} (h : s.binCount ≠ 0) :
    (openBin secs sentinel t half s).binLow = s.binLow := by
  unfold openBin
  rw [if_neg h]
  split
  · simp only; split <;> rfl
  · rfl

theorem openBin_lookup {secs sentinel t half : ℚ} {s : BlState} :
    (openBin secs sentinel t half s).binLookup = s.binLookup := by
  unfold openBin
  split
  · rfl
  · split
    · simp only; split <;> rfl
    · rfl

theorem openBin_tbin_of_gt {secs sentinel t half : ℚ} {s : BlState} (h : s.binCount ≠ 0)
    (hg : t + half - s.binLow > secs) :
    (openBin secs sentinel t half s).tbin = s.tbin + 1 := by
  unfold openBin
  rw [if_neg h, if_pos hg]
  simp only; split <;> rfl

theorem openBin_tbin_of_le {secs sentinel t half : ℚ} {s : BlState} (h : s.binCount ≠ 0)
    (hg : ¬ t + half - s.binLow > secs) :
    openBin secs sentinel t half s = s := by
  unfold openBin
  rw [if_neg h, if_neg hg]

theorem spanInv_step {time interval : Nat → ℚ} {flagged : Nat → Bool} {secs sentinel : ℚ}
    {rowOf : Nat → Option Nat} {T : Nat} {s : BlState}
    (hmono : ∀ t t' r r', t < t' → rowOf t = some r → rowOf t' = some r' →
      lowEdge time interval r ≤ lowEdge time interval r')
    (hb : BlInv time interval flagged rowOf T s)
    (h : SpanInv time interval secs rowOf T s) :
    SpanInv time interval secs rowOf (T + 1)
      (blStep time interval flagged secs sentinel rowOf T s) := by
  unfold blStep
  cases hr : rowOf T with
  | none =>
    simp only
    constructor
    · intro t ht r hrt
      refine h.low t ?_ r hrt
      by_contra hc
      have : t = T := by omega
      subst this; rw [hr] at hrt; simp at hrt
    · intro hp
      obtain ⟨t0, h1, r0, h2, h3, h4⟩ := h.first hp
      exact ⟨t0, by omega, r0, h2, h3, h4⟩
    · intro t' ht' t ht r r' hrt hrt'
      refine h.span t' ?_ t ht r r' hrt hrt'
      by_contra hc
      have : t' = T := by omega
      subst this; rw [hr] at hrt'; simp at hrt'
  | some rT =>
    simp only
    have hlk : ∀ t < T, (addSample time interval flagged T rT
        (openBin secs sentinel (time rT) (interval rT * (1 / 2)) s)).binLookup t = s.binLookup t := by
      intro t ht
      simp only [addSample, openBin_lookup]
      rw [update_of_ne (by omega)]
    have hlkT : (addSample time interval flagged T rT
        (openBin secs sentinel (time rT) (interval rT * (1 / 2)) s)).binLookup T =
        some (openBin secs sentinel (time rT) (interval rT * (1 / 2)) s).tbin := by
      simp [addSample]
    have hlow : (addSample time interval flagged T rT
        (openBin secs sentinel (time rT) (interval rT * (1 / 2)) s)).binLow =
        (openBin secs sentinel (time rT) (interval rT * (1 / 2)) s).binLow := rfl
    by_cases h0 : s.binCount = 0
    · -- first sample of the baseline
      have hnone : ∀ t < T, rowOf t = none := by
        intro t ht
        cases hrt : rowOf t with
        | none => rfl
        | some r => have := (h.low t ht r hrt).1; omega
      have hbl : (openBin secs sentinel (time rT) (interval rT * (1 / 2)) s).binLow =
          lowEdge time interval rT := by
        simp only [openBin, if_pos h0, lowEdge]; ring
      constructor
      · intro t ht r hrt
        refine ⟨by simp [addSample], ?_⟩
        rw [hlow, hbl]
        rcases Nat.lt_succ_iff_lt_or_eq.1 ht with c | c
        · rw [hnone t c] at hrt; simp at hrt
        · subst c; rw [hr] at hrt; rw [Option.some.inj hrt]
      · intro _
        exact ⟨T, by omega, rT, hr, by rw [hlow, hbl], hnone⟩
      · intro t' ht' t ht r r' hrt hrt' _
        have : rowOf t = none := hnone t (by omega)
        rw [this] at hrt; simp at hrt
    · have hpos : 0 < s.binCount := Nat.pos_of_ne_zero h0
      have hbl := openBin_binLow (secs := secs) (sentinel := sentinel) (t := time rT)
        (half := interval rT * (1 / 2)) h0
      obtain ⟨t0, ht0, r0, hr0, hl0, hfirst⟩ := h.first hpos
      constructor
      · intro t ht r hrt
        refine ⟨by simp [addSample], ?_⟩
        rw [hlow, hbl]
        rcases Nat.lt_succ_iff_lt_or_eq.1 ht with c | c
        · exact (h.low t c r hrt).2
        · subst c
          rw [hr] at hrt
          rw [← Option.some.inj hrt, hl0]
          exact hmono t0 t r0 rT ht0 hr0 hr
      · intro _
        exact ⟨t0, by omega, r0, hr0, by rw [hlow, hbl, hl0], hfirst⟩
      · intro t' ht' t ht r r' hrt hrt' he
        rw [hlow, hbl]
        rcases Nat.lt_succ_iff_lt_or_eq.1 ht' with c | c
        · rw [hlk t (by omega), hlk t' c] at he
          exact h.span t' c t ht r r' hrt hrt' he
        · subst c
          rw [hr] at hrt'
          have hrr := Option.some.inj hrt'
          subst hrr
          rw [hlk t ht, hlkT] at he
          by_cases hg : time rT + interval rT * (1 / 2) - s.binLow > secs
          · rw [openBin_tbin_of_gt h0 hg] at he
            have := hb.bound t _ he
            omega
          · have : highEdge time interval rT = time rT + interval rT * (1 / 2) := by
              unfold highEdge; ring
            rw [this]; exact not_lt.1 hg

theorem spanInv_loop {time interval : Nat → ℚ} {flagged : Nat → Bool} {secs sentinel : ℚ}
    {rowOf : Nat → Option Nat}
    (hmono : ∀ t t' r r', t < t' → rowOf t = some r → rowOf t' = some r' →
      lowEdge time interval r ≤ lowEdge time interval r') (T : Nat) :
    SpanInv time interval secs rowOf T
      (forRange T {} (blStep time interval flagged secs sentinel rowOf)) := by
  have := forRange_inv (n := T) (init := ({} : BlState))
    (f := blStep time interval flagged secs sentinel rowOf)
    (P := fun T s => BlInv time interval flagged rowOf T s ∧ SpanInv time interval secs rowOf T s)
    ⟨blInv_init time interval flagged rowOf, by constructor <;> simp⟩
    (fun i s _ hs => ⟨blStep_inv hs.1, spanInv_step hmono hs.1 hs.2⟩)
  exact this.2

/-- Conversely, when upper edges do not decrease, samples that fit are put together. -/
structure JoinInv (time interval : Nat → ℚ) (secs : ℚ) (rowOf : Nat → Option Nat)
    (T : Nat) (s : BlState) : Prop where
  join : ∀ t' < T, ∀ t < t', ∀ r r', rowOf t = some r → rowOf t' = some r' →
    highEdge time interval r' - s.binLow ≤ secs → s.binLookup t = s.binLookup t'

theorem joinInv_step {time interval : Nat → ℚ} {flagged : Nat → Bool} {secs sentinel : ℚ}
    {rowOf : Nat → Option Nat} {T : Nat} {s : BlState}
    (hmonoH : ∀ t t' r r', t < t' → rowOf t = some r → rowOf t' = some r' →
      highEdge time interval r ≤ highEdge time interval r')
    (hb : BlInv time interval flagged rowOf T s)
    (hs : SpanInv time interval secs rowOf T s)
    (h : JoinInv time interval secs rowOf T s) :
    JoinInv time interval secs rowOf (T + 1)
      (blStep time interval flagged secs sentinel rowOf T s) := by
  unfold blStep
  cases hr : rowOf T with
  | none =>
    simp only
    constructor
    intro t' ht' t ht r r' hrt hrt'
    refine h.join t' ?_ t ht r r' hrt hrt'
    by_contra hc
    have : t' = T := by omega
    subst this; rw [hr] at hrt'; simp at hrt'
  | some rT =>
    simp only
    constructor
    intro t' ht' t ht r r' hrt hrt' hle
    have hpos := (hs.low t (by omega) r hrt).1
    have h0 : s.binCount ≠ 0 := by omega
    have hlow : (addSample time interval flagged T rT
        (openBin secs sentinel (time rT) (interval rT * (1 / 2)) s)).binLow = s.binLow :=
      openBin_binLow h0
    rw [hlow] at hle
    have hlk : ∀ t < T, (addSample time interval flagged T rT
        (openBin secs sentinel (time rT) (interval rT * (1 / 2)) s)).binLookup t = s.binLookup t := by
      intro t ht
      simp only [addSample, openBin_lookup]
      rw [update_of_ne (by omega)]
    rcases Nat.lt_succ_iff_lt_or_eq.1 ht' with c | c
    · rw [hlk t (by omega), hlk t' c]
      exact h.join t' c t ht r r' hrt hrt' hle
    · subst c
      rw [hr] at hrt'
      have hrr := Option.some.inj hrt'
      subst hrr
      rw [hlk t ht]
      have hg : ¬ time rT + interval rT * (1 / 2) - s.binLow > secs := by
        have : highEdge time interval rT = time rT + interval rT * (1 / 2) := by
          unfold highEdge; ring
        rw [← this]; exact not_lt.2 hle
      simp only [addSample, openBin_tbin_of_le h0 hg, update_self]
      -- some sample sits in the current bin
      have hcnt := hb.cnt
      have : ∃ u ∈ Finset.range t', (if s.binLookup u = some s.tbin then 1 else 0 : Nat) ≠ 0 := by
        by_contra hc
        push Not at hc
        have : binN s.binLookup t' s.tbin = 0 := Finset.sum_eq_zero hc
        omega
      obtain ⟨u, hu, hne⟩ := this
      have hu := Finset.mem_range.1 hu
      have hlu : s.binLookup u = some s.tbin := by by_contra hc; simp [hc] at hne
      obtain ⟨ru, hru⟩ := Option.ne_none_iff_exists'.1 ((hb.dom u).1 (by rw [hlu]; simp)).2
      rcases lt_trichotomy t u with htu | htu | htu
      · rw [h.join u hu t htu r ru hrt hru
          (le_trans (sub_le_sub_right (hmonoH u t' ru rT hu hru hr) _) hle), hlu]
      · subst htu; exact hlu
      · rw [← h.join t ht u htu ru r hru hrt
          (le_trans (sub_le_sub_right (hmonoH t t' r rT ht hrt hr) _) hle), hlu]

theorem joinInv_loop {time interval : Nat → ℚ} {flagged : Nat → Bool} {secs sentinel : ℚ}
    {rowOf : Nat → Option Nat}
    (hmono : ∀ t t' r r', t < t' → rowOf t = some r → rowOf t' = some r' →
      lowEdge time interval r ≤ lowEdge time interval r')
    (hmonoH : ∀ t t' r r', t < t' → rowOf t = some r → rowOf t' = some r' →
      highEdge time interval r ≤ highEdge time interval r') (T : Nat) :
    JoinInv time interval secs rowOf T
      (forRange T {} (blStep time interval flagged secs sentinel rowOf)) := by
  have := forRange_inv (n := T) (init := ({} : BlState))
    (f := blStep time interval flagged secs sentinel rowOf)
    (P := fun T s => BlInv time interval flagged rowOf T s ∧ SpanInv time interval secs rowOf T s ∧
      JoinInv time interval secs rowOf T s)
    ⟨blInv_init time interval flagged rowOf, by constructor <;> simp, by constructor; simp⟩
    (fun i s _ hs => ⟨blStep_inv hs.1, spanInv_step hmono hs.1 hs.2.1,
      joinInv_step hmonoH hs.1 hs.2.1 hs.2.2⟩)
  exact this.2.2

theorem blLoop_lookup {time interval : Nat → ℚ} {flagged : Nat → Bool} {secs sentinel : ℚ}
    {ntime : Nat} {rowOf : Nat → Option Nat} :
    (blLoop time interval flagged secs sentinel ntime rowOf).binLookup =
      (forRange ntime {} (blStep time interval flagged secs sentinel rowOf)).binLookup := by
  unfold blLoop blFinish
  simp only; split <;> rfl

section rows
variable {n : Nat} {time interval : Nat → ℚ} {ant1 ant2 : Nat → Int}
  {flagRow : Option (Nat → Nat)} {secs sentinel : ℚ} {out : RowMapOutput}

/-- Rows averaged together lie within `secs` of the lower edge of the baseline's first sample. -/
theorem span_of_map_eq (hok : RowMapOK n time interval ant1 ant2 flagRow secs sentinel out)
    (hmono : ∀ r < n, ∀ q < n, ant1 r = ant1 q → ant2 r = ant2 q → time r < time q →
      lowEdge time interval r ≤ lowEdge time interval q)
    {r0 r q : Nat} (hr0 : r0 < n) (hr : r < n) (hq : q < n)
    (h0a : ant1 r0 = ant1 r) (h0b : ant2 r0 = ant2 r)
    (hfirst : ∀ p < n, ant1 p = ant1 r → ant2 p = ant2 r → time r0 ≤ time p)
    (hlt : time r < time q) (hm : out.map r = out.map q) :
    highEdge time interval q - lowEdge time interval r0 ≤ secs := by
  obtain ⟨blInv, timeInv, ntime, rl, hbl, ht, htl, -, hrl, hmap⟩ := hok.bins
  obtain ⟨e1, e2⟩ := (hmap r hr q hq).1 hm
  rw [← e1, blLoop_lookup] at e2
  have hR := (hrl (blInv r) (timeInv r) r).2 ⟨hr, rfl, rfl⟩
  have hQ := (hrl (blInv r) (timeInv q) q).2 ⟨hq, e1.symm, rfl⟩
  have hmono' : ∀ t t' a b, t < t' → rl (blInv r) t = some a → rl (blInv r) t' = some b →
      lowEdge time interval a ≤ lowEdge time interval b := by
    intro t t' a b hlt ha hb
    obtain ⟨a1, a2, a3⟩ := (hrl _ _ _).1 ha
    obtain ⟨b1, b2, b3⟩ := (hrl _ _ _).1 hb
    obtain ⟨c1, c2⟩ := (hbl a a1 b b1).1 (a2.trans b2.symm)
    exact hmono a a1 b b1 c1 c2 ((ht a a1 b b1).1 (by rw [a3, b3]; exact hlt))
  have hs := spanInv_loop (flagged := isFlagged flagRow) (secs := secs) (sentinel := sentinel)
    hmono' ntime
  have h1 := hs.span (timeInv q) (htl q hq) (timeInv r) ((ht r hr q hq).2 hlt) r q hR hQ e2
  obtain ⟨t0, ht0, p0, hp0, hlow, hnone⟩ := hs.first (hs.low (timeInv r) (htl r hr) r hR).1
  obtain ⟨p1, p2, p3⟩ := (hrl _ _ _).1 hp0
  obtain ⟨c1, c2⟩ := (hbl p0 p1 r hr).1 p2
  -- the first sample of the loop is `r0`
  have hle : time p0 ≤ time r0 := by
    by_contra hc
    have hlt0 := (ht r0 hr0 p0 p1).2 (not_le.1 hc)
    rw [p3] at hlt0
    have := hnone _ hlt0
    rw [(hrl (blInv r) (timeInv r0) r0).2
      ⟨hr0, (hbl r0 hr0 r hr).2 ⟨h0a, h0b⟩, rfl⟩] at this
    simp at this
  have heq : time p0 = time r0 := le_antisymm hle (hfirst p0 p1 c1 c2)
  have hbe : blInv r0 = blInv p0 := (hbl r0 hr0 p0 p1).2 ⟨h0a.trans c1.symm, h0b.trans c2.symm⟩
  have hte : timeInv r0 = timeInv p0 := by
    rcases lt_trichotomy (timeInv r0) (timeInv p0) with h | h | h
    · have := (ht r0 hr0 p0 p1).1 h; rw [heq] at this; exact absurd this (lt_irrefl _)
    · exact h
    · have := (ht p0 p1 r0 hr0).1 h; rw [heq] at this; exact absurd this (lt_irrefl _)
  have hpe : r0 = p0 := by
    have a1 := (hrl (blInv p0) (timeInv p0) p0).2 ⟨p1, rfl, rfl⟩
    have a2 := (hrl (blInv p0) (timeInv p0) r0).2 ⟨hr0, hbe, hte⟩
    rw [a1] at a2; exact (Option.some.inj a2).symm
  rw [hpe, ← hlow]; exact h1

theorem map_eq_of_span (hok : RowMapOK n time interval ant1 ant2 flagRow secs sentinel out)
    (hmono : ∀ r < n, ∀ q < n, ant1 r = ant1 q → ant2 r = ant2 q → time r < time q →
      lowEdge time interval r ≤ lowEdge time interval q)
    (hmonoH : ∀ r < n, ∀ q < n, ant1 r = ant1 q → ant2 r = ant2 q → time r < time q →
      highEdge time interval r ≤ highEdge time interval q)
    {r0 r q : Nat} (hr0 : r0 < n) (hr : r < n) (hq : q < n)
    (h0a : ant1 r0 = ant1 r) (h0b : ant2 r0 = ant2 r)
    (hfirst : ∀ p < n, ant1 p = ant1 r → ant2 p = ant2 r → time r0 ≤ time p)
    (ha : ant1 r = ant1 q) (hb : ant2 r = ant2 q)
    (hlt : time r < time q)
    (hle : highEdge time interval q - lowEdge time interval r0 ≤ secs) :
    out.map r = out.map q := by
  obtain ⟨blInv, timeInv, ntime, rl, hbl, ht, htl, -, hrl, hmap⟩ := hok.bins
  have e1 : blInv r = blInv q := (hbl r hr q hq).2 ⟨ha, hb⟩
  rw [hmap r hr q hq]
  refine ⟨e1, ?_⟩
  rw [← e1, blLoop_lookup]
  have hR := (hrl (blInv r) (timeInv r) r).2 ⟨hr, rfl, rfl⟩
  have hQ := (hrl (blInv r) (timeInv q) q).2 ⟨hq, e1.symm, rfl⟩
  have hR0 := (hrl (blInv r) (timeInv r0) r0).2 ⟨hr0, (hbl r0 hr0 r hr).2 ⟨h0a, h0b⟩, rfl⟩
  have hmono' : ∀ t t' a b, t < t' → rl (blInv r) t = some a → rl (blInv r) t' = some b →
      lowEdge time interval a ≤ lowEdge time interval b := by
    intro t t' a b hlt ha hb
    obtain ⟨a1, a2, a3⟩ := (hrl _ _ _).1 ha
    obtain ⟨b1, b2, b3⟩ := (hrl _ _ _).1 hb
    obtain ⟨c1, c2⟩ := (hbl a a1 b b1).1 (a2.trans b2.symm)
    exact hmono a a1 b b1 c1 c2 ((ht a a1 b b1).1 (by rw [a3, b3]; exact hlt))
  have hmonoH' : ∀ t t' a b, t < t' → rl (blInv r) t = some a → rl (blInv r) t' = some b →
      highEdge time interval a ≤ highEdge time interval b := by
    intro t t' a b hlt ha hb
    obtain ⟨a1, a2, a3⟩ := (hrl _ _ _).1 ha
    obtain ⟨b1, b2, b3⟩ := (hrl _ _ _).1 hb
    obtain ⟨c1, c2⟩ := (hbl a a1 b b1).1 (a2.trans b2.symm)
    exact hmonoH a a1 b b1 c1 c2 ((ht a a1 b b1).1 (by rw [a3, b3]; exact hlt))
  have hs := spanInv_loop (flagged := isFlagged flagRow) (secs := secs) (sentinel := sentinel)
    hmono' ntime
  have hj := joinInv_loop (flagged := isFlagged flagRow) (secs := secs) (sentinel := sentinel)
    hmono' hmonoH' ntime
  refine hj.join (timeInv q) (htl q hq) (timeInv r) ((ht r hr q hq).2 hlt) r q hR hQ ?_
  obtain ⟨t0, ht0, p0, hp0, hlow, hnone⟩ := hs.first (hs.low (timeInv r) (htl r hr) r hR).1
  obtain ⟨p1, p2, p3⟩ := (hrl _ _ _).1 hp0
  obtain ⟨c1, c2⟩ := (hbl p0 p1 r hr).1 p2
  have hte : timeInv r0 = t0 := by
    rcases lt_trichotomy (timeInv r0) t0 with h | h | h
    · rw [hnone _ h] at hR0; simp at hR0
    · exact h
    · rw [← p3] at h
      exact absurd ((ht p0 p1 r0 hr0).1 h) (not_lt.2 (hfirst p0 p1 c1 c2))
  rw [hte, hp0] at hR0
  rw [hlow, Option.some.inj hR0]; exact hle

end rows
end Verif.Averaging
