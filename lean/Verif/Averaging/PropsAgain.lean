/-
**C201**: averaging rows that have been averaged already.
-/
import Verif.Averaging.Props3
import Mathlib.Order.Interval.Finset.Basic
import Mathlib.Data.Int.Interval
import Mathlib.Tactic.FieldSimp

set_option autoImplicit false

namespace Verif.Averaging

/-! ### Specification -/

/-- Regular samples: every row is one of the dumps of length `d` that are counted by `k`, and no baseline misses a dump
between its first and its last. -/
structure Regular (n : Nat) (time interval : Nat → ℚ) (ant1 ant2 : Nat → Int) (t0 d : ℚ) (k : Nat → ℤ) : Prop where
  pos : 0 < d
  time_eq : ∀ r < n, time r = t0 + k r * d
  int_eq : ∀ r < n, interval r = d
  full : ∀ r < n, ∀ q < n, ant1 r = ant1 q → ant2 r = ant2 q → ∀ j, k r ≤ j → j ≤ k q →
    ∃ p < n, ant1 p = ant1 r ∧ ant2 p = ant2 r ∧ k p = j

/-- The antennas of averaged rows: those of the rows that went in. -/
def Antennas (n : Nat) (m : Nat → Nat) (ant1 ant2 A1 A2 : Nat → Int) : Prop :=
  ∀ r < n, A1 (m r) = ant1 r ∧ A2 (m r) = ant2 r

/-! ### Lemmas -/

private theorem sum_Icc (a : ℤ) (m : ℕ) : ∑ j ∈ Finset.Icc a (a + m), (j : ℚ) = (m + 1) * (a + m / 2) := by
  induction m with
  | zero => simp
  | succ m ih =>
    have : Finset.Icc a (a + (m + 1 : ℕ)) = insert (a + (m + 1 : ℕ)) (Finset.Icc a (a + m)) := by
      ext x
      simp only [Finset.mem_insert, Finset.mem_Icc]
      omega
    rw [this, Finset.sum_insert (by simp), ih]
    push_cast
    ring

private theorem rows_eq {n a b : Nat} {f g : Nat → Nat} (h : ∀ r < n, ∀ q < n, f r = f q ↔ g r = g q)
    (hf : ∀ o < a, ∃ r < n, f r = o) (hg : ∀ r < n, g r < b) : a ≤ b := by
  choose! s hs using hf
  have := Finset.card_le_card_of_injOn (s := Finset.range a) (t := Finset.range b) (fun o => g (s o))
    (fun o ho => by
      have ho' := Finset.mem_range.1 (Finset.mem_coe.1 ho)
      exact Finset.mem_coe.2 (Finset.mem_range.2 (hg _ (hs o ho').1)))
    (fun o ho o' ho' he => by
      have h1 := hs o (Finset.mem_range.1 (Finset.mem_coe.1 ho))
      have h2 := hs o' (Finset.mem_range.1 (Finset.mem_coe.1 ho'))
      have := (h _ h1.1 _ h2.1).2 he
      rw [h1.2, h2.2] at this
      exact this)
  simpa using this

section

variable {n : Nat} {time interval : Nat → ℚ} {ant1 ant2 : Nat → Int} {flagRow : Option (Nat → Nat)}
  {secs sentinel t0 d : ℚ} {k : Nat → ℤ} {out : RowMapOutput}

private theorem first_row (ant1 ant2 : Nat → Int) (k : Nat → ℤ) {r : Nat} (hr : r < n) :
    ∃ r0 < n, ant1 r0 = ant1 r ∧ ant2 r0 = ant2 r ∧
      ∀ p < n, ant1 p = ant1 r → ant2 p = ant2 r → k r0 ≤ k p := by
  obtain ⟨r0, h, hmin⟩ := Finset.exists_min_image
    ((Finset.range n).filter fun p => ant1 p = ant1 r ∧ ant2 p = ant2 r) k ⟨r, by simp [hr]⟩
  simp only [Finset.mem_filter, Finset.mem_range] at h hmin
  exact ⟨r0, h.1, h.2.1, h.2.2, fun p hp ha hb => hmin p ⟨hp, ha, hb⟩⟩

private theorem time_lt (hreg : Regular n time interval ant1 ant2 t0 d k) {r q : Nat} (hr : r < n) (hq : q < n) :
    time r < time q ↔ k r < k q := by
  rw [hreg.time_eq r hr, hreg.time_eq q hq, add_lt_add_iff_left, mul_lt_mul_iff_left₀ hreg.pos, Int.cast_lt]

private theorem share (h32 : ∀ r < n, IsInt32 (ant1 r)) (hsent : ∀ r < n, time r < sentinel)
    (hreg : Regular n time interval ant1 ant2 t0 d k)
    (h : rowMapper sentinel n time interval ant1 ant2 flagRow secs = .ok out) {r0 r q : Nat} (hr0 : r0 < n) (hr : r < n)
    (hq : q < n) (h0 : ant1 r0 = ant1 r ∧ ant2 r0 = ant2 r)
    (hfirst : ∀ p < n, ant1 p = ant1 r → ant2 p = ant2 r → k r0 ≤ k p)
    (hbl : ant1 r = ant1 q ∧ ant2 r = ant2 q) (hlt : k r < k q) :
    out.map r = out.map q ↔ ((k q : ℚ) - k r0 + 1) * d ≤ secs := by
  rw [C08_sharing_partial h32 hsent (fun r hr q hq _ _ hl => by
    simp only [lowEdge, highEdge, hreg.int_eq r hr, hreg.int_eq q hq]; constructor <;> linarith) h r0 r q hr0 hr hq h0
    (fun p hp ha hb => by
      have := hfirst p hp ha hb
      by_contra hn
      exact absurd ((time_lt hreg hp hr0).1 (not_le.1 hn)) (by omega)) hbl ((time_lt hreg hr hq).2 hlt)]
  have e : highEdge time interval q - lowEdge time interval r0 = ((k q : ℚ) - k r0 + 1) * d := by
    simp only [lowEdge, highEdge, hreg.int_eq r0 hr0, hreg.int_eq q hq, hreg.time_eq r0 hr0, hreg.time_eq q hq]
    ring
  rw [e]

private theorem k_inj (h32 : ∀ r < n, IsInt32 (ant1 r)) (hsent : ∀ r < n, time r < sentinel)
    (hreg : Regular n time interval ant1 ant2 t0 d k)
    (h : rowMapper sentinel n time interval ant1 ant2 flagRow secs = .ok out) {r q : Nat} (hr : r < n) (hq : q < n)
    (hbl : ant1 r = ant1 q ∧ ant2 r = ant2 q) (he : k r = k q) : r = q :=
  (rowMapOK_of_ok h32 hsent h).1 r hr q hq (by rw [hreg.time_eq r hr, hreg.time_eq q hq, he]) hbl.1 hbl.2

/-- An averaged row covers the dumps from that of `ra` to that of `rb`. -/
private structure Span (n : Nat) (ant1 ant2 : Nat → Int) (t0 d : ℚ) (k : Nat → ℤ) (out : RowMapOutput) (o ra rb : Nat) :
    Prop where
  la : ra < n
  lb : rb < n
  ma : out.map ra = o
  mb : out.map rb = o
  between : ∀ r < n, out.map r = o → k ra ≤ k r ∧ k r ≤ k rb
  inside : ∀ p < n, ant1 p = ant1 ra → ant2 p = ant2 ra → k ra ≤ k p → k p ≤ k rb → out.map p = o
  time : out.time o = t0 + ((k ra : ℚ) + k rb) / 2 * d
  interval : out.interval o = ((k rb : ℚ) - k ra + 1) * d

private theorem span (h32 : ∀ r < n, IsInt32 (ant1 r)) (hsent : ∀ r < n, time r < sentinel)
    (hreg : Regular n time interval ant1 ant2 t0 d k)
    (h : rowMapper sentinel n time interval ant1 ant2 flagRow secs = .ok out) {o : Nat} (ho : o < out.outRows) :
    ∃ ra rb, Span n ant1 ant2 t0 d k out o ra rb := by
  obtain ⟨-, honto, hbl⟩ := C02_rows_partitioned_by_baseline h32 hsent h
  obtain ⟨hc, ht, hi⟩ := C03_time_mean_interval_sum h32 hsent h o ho
  have hmem : ∀ r, r ∈ fibre n out.map o ↔ r < n ∧ out.map r = o := by simp [fibre]
  obtain ⟨ra, hra, hmin⟩ := Finset.exists_min_image _ k (Finset.card_pos.1 hc)
  obtain ⟨rb, hrb, hmax⟩ := Finset.exists_max_image _ k (Finset.card_pos.1 hc)
  rw [hmem] at hra hrb
  have hin : ∀ p < n, ant1 p = ant1 ra → ant2 p = ant2 ra → k ra ≤ k p → k p ≤ k rb → out.map p = o := by
    intro p hp ha hb h1 h2
    have hab := hbl ra hra.1 rb hrb.1 (hra.2.trans hrb.2.symm)
    obtain ⟨r0, hr0, f1, f2, hf⟩ := first_row ant1 ant2 k hra.1
    rcases h2.lt_or_eq with h2 | h2
    · rcases h1.lt_or_eq with h1 | h1
      · have s1 := (share h32 hsent hreg h hr0 hra.1 hrb.1 ⟨f1, f2⟩ hf hab (h1.trans h2)).1 (hra.2.trans hrb.2.symm)
        exact ((share h32 hsent hreg h hr0 hp hrb.1 ⟨f1.trans ha.symm, f2.trans hb.symm⟩
          (fun p' hp' ha' hb' => hf p' hp' (ha'.trans ha) (hb'.trans hb)) ⟨ha.trans hab.1, hb.trans hab.2⟩ h2).2 s1).trans
          hrb.2
      · rw [← k_inj h32 hsent hreg h hra.1 hp ⟨ha.symm, hb.symm⟩ h1]
        exact hra.2
    · rw [k_inj h32 hsent hreg h hp hrb.1 ⟨ha.trans hab.1, hb.trans hab.2⟩ h2]
      exact hrb.2
  have hab := hbl ra hra.1 rb hrb.1 (hra.2.trans hrb.2.symm)
  have hle : k ra ≤ k rb := hmin rb ((hmem rb).2 hrb)
  have himg : (fibre n out.map o).image k = Finset.Icc (k ra) (k rb) := by
    ext j
    simp only [Finset.mem_image, Finset.mem_Icc]
    constructor
    · rintro ⟨r, hr, rfl⟩
      exact ⟨hmin r hr, hmax r hr⟩
    · rintro ⟨h1, h2⟩
      obtain ⟨p, hp, ha, hb, e⟩ := hreg.full ra hra.1 rb hrb.1 hab.1 hab.2 j h1 h2
      exact ⟨p, (hmem p).2 ⟨hp, hin p hp ha hb (by omega) (by omega)⟩, e⟩
  have hinj : Set.InjOn k (fibre n out.map o : Set Nat) := by
    intro r hr q hq he
    have hr' := (hmem r).1 (Finset.mem_coe.1 hr)
    have hq' := (hmem q).1 (Finset.mem_coe.1 hq)
    exact k_inj h32 hsent hreg h hr'.1 hq'.1 (hbl r hr'.1 q hq'.1 (hr'.2.trans hq'.2.symm)) he
  obtain ⟨m, hm⟩ : ∃ m : ℕ, k rb = k ra + m := ⟨(k rb - k ra).toNat, by omega⟩
  have hcard : (fibre n out.map o).card = m + 1 := by
    rw [← Finset.card_image_of_injOn hinj, himg, Int.card_Icc]
    omega
  have hsum : ∑ r ∈ fibre n out.map o, (k r : ℚ) = (m + 1) * (k ra + m / 2) := by
    rw [← sum_Icc, ← hm, ← himg, Finset.sum_image hinj]
  refine ⟨ra, rb, hra.1, hrb.1, hra.2, hrb.2, fun r hr he => ⟨hmin r ((hmem r).2 ⟨hr, he⟩), hmax r ((hmem r).2 ⟨hr, he⟩)⟩,
    hin, ?_, ?_⟩
  · rw [ht, Finset.sum_congr rfl fun r hr => hreg.time_eq r ((hmem r).1 hr).1, Finset.sum_add_distrib, ← Finset.sum_mul,
      hsum, hcard, hm, Finset.sum_const, hcard]
    have : (m : ℚ) + 1 ≠ 0 := by positivity
    push_cast
    field_simp
    ring
  · rw [hi, Finset.sum_congr rfl fun r hr => hreg.int_eq r ((hmem r).1 hr).1, Finset.sum_const, hcard, hm]
    push_cast
    ring

/-- What is needed of the averaged rows to average them again. -/
private structure Again (n : Nat) (ant1 ant2 A1 A2 : Nat → Int) (t0 d sentinel : ℚ) (k : Nat → ℤ) (out : RowMapOutput) :
    Prop where
  h32 : ∀ o < out.outRows, IsInt32 (A1 o)
  hsent : ∀ o < out.outRows, out.time o < sentinel
  nodup : NoDup out.outRows out.time A1 A2
  before : ∀ o < out.outRows, ∀ o' < out.outRows, A1 o = A1 o' → A2 o = A2 o' → out.time o < out.time o' →
    ∀ ra rb ra' rb', Span n ant1 ant2 t0 d k out o ra rb → Span n ant1 ant2 t0 d k out o' ra' rb' → k rb < k ra'

private theorem edges {ra rb o : Nat} (s : Span n ant1 ant2 t0 d k out o ra rb) :
    lowEdge out.time out.interval o = t0 + ((k ra : ℚ) - 1 / 2) * d ∧
    highEdge out.time out.interval o = t0 + ((k rb : ℚ) + 1 / 2) * d := by
  simp only [lowEdge, highEdge, s.time, s.interval]
  constructor <;> ring

private theorem again {A1 A2 : Nat → Int} (h32 : ∀ r < n, IsInt32 (ant1 r)) (hsent : ∀ r < n, time r < sentinel)
    (hreg : Regular n time interval ant1 ant2 t0 d k)
    (h : rowMapper sentinel n time interval ant1 ant2 flagRow secs = .ok out) (hA : Antennas n out.map ant1 ant2 A1 A2) :
    Again n ant1 ant2 A1 A2 t0 d sentinel k out := by
  have hd := hreg.pos
  have hk : ∀ {o o' ra rb ra' rb' : Nat}, Span n ant1 ant2 t0 d k out o ra rb → Span n ant1 ant2 t0 d k out o' ra' rb' →
      (out.time o < out.time o' ↔ k ra + k rb < k ra' + k rb') := by
    intro o o' ra rb ra' rb' s s'
    rw [s.time, s'.time, add_lt_add_iff_left, mul_lt_mul_iff_left₀ hd, div_lt_div_iff_of_pos_right (by norm_num)]
    exact_mod_cast Iff.rfl
  have hab : ∀ {o ra rb : Nat}, Span n ant1 ant2 t0 d k out o ra rb → k ra ≤ k rb := fun s => (s.between _ s.lb s.mb).1
  have hbl : ∀ {o o' ra rb ra' rb' : Nat}, Span n ant1 ant2 t0 d k out o ra rb → Span n ant1 ant2 t0 d k out o' ra' rb' →
      A1 o = A1 o' → A2 o = A2 o' → ant1 ra = ant1 ra' ∧ ant2 ra = ant2 ra' := by
    intro o o' ra rb ra' rb' s s' h1 h2
    have e := hA ra s.la
    have e' := hA ra' s'.la
    rw [s.ma] at e
    rw [s'.ma] at e'
    exact ⟨e.1.symm.trans (h1.trans e'.1), e.2.symm.trans (h2.trans e'.2)⟩
  -- averaged rows of a baseline that have a dump in common are the same
  have hsame : ∀ {o o' ra rb ra' rb' : Nat}, Span n ant1 ant2 t0 d k out o ra rb → Span n ant1 ant2 t0 d k out o' ra' rb' →
      A1 o = A1 o' → A2 o = A2 o' → k ra ≤ k rb' → k ra' ≤ k rb → o = o' := by
    intro o o' ra rb ra' rb' s s' h1 h2 c1 c2
    obtain ⟨b1, b2⟩ := hbl s s' h1 h2
    rcases le_total (k ra) (k ra') with hle | hle
    · rw [← s.inside ra' s'.la b1.symm b2.symm hle c2, s'.ma]
    · rw [← s'.inside ra s.la b1 b2 hle c1, s.ma]
  refine ⟨fun o ho => ?_, fun o ho => ?_, ?_, ?_⟩
  · obtain ⟨r, hr, rfl⟩ := (C02_rows_partitioned_by_baseline h32 hsent h).2.1 o ho
    rw [(hA r hr).1]
    exact h32 r hr
  · obtain ⟨ra, rb, s⟩ := span h32 hsent hreg h ho
    have h1 := hsent ra s.la
    have h2 := hsent rb s.lb
    rw [hreg.time_eq ra s.la] at h1
    rw [hreg.time_eq rb s.lb] at h2
    rw [s.time]
    linarith
  · intro o ho o' ho' ht h1 h2
    obtain ⟨ra, rb, s⟩ := span h32 hsent hreg h ho
    obtain ⟨ra', rb', s'⟩ := span h32 hsent hreg h ho'
    have e1 := mt (hk s s').2 (by rw [ht]; exact lt_irrefl _)
    have e2 := mt (hk s' s).2 (by rw [ht]; exact lt_irrefl _)
    have := hab s
    have := hab s'
    exact hsame s s' h1 h2 (by omega) (by omega)
  · intro o ho o' ho' h1 h2 ht ra rb ra' rb' s s'
    by_contra hn
    have := (hk s s').1 ht
    have a1 := hab s
    have a2 := hab s'
    have := hsame s s' h1 h2 (by omega) (by omega)
    rw [this] at ht
    exact lt_irrefl _ ht

/-- Which averaged rows are averaged again. -/
private theorem share_again {A1 A2 : Nat → Int} {flagRow2 : Option (Nat → Nat)} {secs2 : ℚ} {out2 : RowMapOutput}
    (h32 : ∀ r < n, IsInt32 (ant1 r)) (hsent : ∀ r < n, time r < sentinel)
    (hreg : Regular n time interval ant1 ant2 t0 d k)
    (h : rowMapper sentinel n time interval ant1 ant2 flagRow secs = .ok out) (hA : Antennas n out.map ant1 ant2 A1 A2)
    (h2 : rowMapper sentinel out.outRows out.time out.interval A1 A2 flagRow2 secs2 = .ok out2)
    {r0 o o' ra rb ra' rb' : Nat} (hr0 : r0 < n) (ho : o < out.outRows) (ho' : o' < out.outRows)
    (s : Span n ant1 ant2 t0 d k out o ra rb) (s' : Span n ant1 ant2 t0 d k out o' ra' rb')
    (h0 : ant1 r0 = ant1 ra ∧ ant2 r0 = ant2 ra) (hfirst : ∀ p < n, ant1 p = ant1 ra → ant2 p = ant2 ra → k r0 ≤ k p)
    (hbl : A1 o = A1 o' ∧ A2 o = A2 o') (hlt : out.time o < out.time o') :
    out2.map o = out2.map o' ↔ ((k rb' : ℚ) - k r0 + 1) * d ≤ secs2 := by
  have ag := again h32 hsent hreg h hA
  have hd := hreg.pos
  obtain ⟨hin, honto, -⟩ := C02_rows_partitioned_by_baseline h32 hsent h
  obtain ⟨r1, rc, s0⟩ := span h32 hsent hreg h (hin r0 hr0)
  have eo := hA ra s.la
  rw [s.ma] at eo
  have e0 := hA r0 hr0
  have hb0 : A1 (out.map r0) = A1 o ∧ A2 (out.map r0) = A2 o :=
    ⟨e0.1.trans (h0.1.trans eo.1.symm), e0.2.trans (h0.2.trans eo.2.symm)⟩
  have e1 := hA r1 s0.la
  rw [s0.ma] at e1
  have hk1 : k r1 = k r0 := le_antisymm (s0.between r0 hr0 rfl).1
    (hfirst r1 s0.la (e1.1.symm.trans (hb0.1.trans eo.1)) (e1.2.symm.trans (hb0.2.trans eo.2)))
  rw [C08_sharing_partial ag.h32 ag.hsent (fun x hx y hy hax hbx hl => by
    obtain ⟨xa, xb, sx⟩ := span h32 hsent hreg h hx
    obtain ⟨ya, yb, sy⟩ := span h32 hsent hreg h hy
    have hb := ag.before x hx y hy hax hbx hl xa xb ya yb sx sy
    have hx1 := (sx.between _ sx.lb sx.mb).1
    have hy1 := (sy.between _ sy.lb sy.mb).1
    rw [(edges sx).1, (edges sx).2, (edges sy).1, (edges sy).2]
    have c1 : (k xa : ℚ) ≤ k ya := by exact_mod_cast (by omega : k xa ≤ k ya)
    have c2 : (k xb : ℚ) ≤ k yb := by exact_mod_cast (by omega : k xb ≤ k yb)
    constructor
    · nlinarith
    · nlinarith) h2 (out.map r0) o o' (hin r0 hr0) ho ho' hb0 (fun p hp ha hb => by
      by_contra hn
      obtain ⟨pa, pb, sp⟩ := span h32 hsent hreg h hp
      have ep := hA pb sp.lb
      rw [sp.mb] at ep
      have := ag.before p hp _ (hin r0 hr0) (ha.trans hb0.1.symm) (hb.trans hb0.2.symm) (not_le.1 hn) pa pb r1 rc sp s0
      have := hfirst pb sp.lb (ep.1.symm.trans (ha.trans eo.1)) (ep.2.symm.trans (hb.trans eo.2))
      omega) hbl hlt, (edges s').2, (edges s0).1, hk1]
  have e : t0 + ((k rb' : ℚ) + 1 / 2) * d - (t0 + ((k r0 : ℚ) - 1 / 2) * d) = ((k rb' : ℚ) - k r0 + 1) * d := by ring
  rw [e]

end

/-! ### C201 -/

private theorem two_aux {n : Nat} {time interval : Nat → ℚ} {ant1 ant2 A1 A2 : Nat → Int}
    {flagRow flagRow2 flagRow3 : Option (Nat → Nat)} {w1 w2 sentinel t0 d : ℚ} {k : Nat → ℤ} {out1 out2 out : RowMapOutput}
    (h32 : ∀ r < n, IsInt32 (ant1 r)) (hsent : ∀ r < n, time r < sentinel)
    (hreg : Regular n time interval ant1 ant2 t0 d k) (hw : w1 ≤ w2)
    (h1 : rowMapper sentinel n time interval ant1 ant2 flagRow w1 = .ok out1) (hA : Antennas n out1.map ant1 ant2 A1 A2)
    (h2 : rowMapper sentinel out1.outRows out1.time out1.interval A1 A2 flagRow2 w2 = .ok out2)
    (h : rowMapper sentinel n time interval ant1 ant2 flagRow3 w2 = .ok out) {r q : Nat} (hr : r < n) (hq : q < n)
    (hbl : ant1 r = ant1 q ∧ ant2 r = ant2 q) (hlt : k r < k q) :
    out2.map (out1.map r) = out2.map (out1.map q) ↔ out.map r = out.map q := by
  obtain ⟨r0, hr0, f1, f2, hf⟩ := first_row ant1 ant2 k hr
  have hd := hreg.pos
  have ag := again h32 hsent hreg h1 hA
  obtain ⟨hin, -, hb1⟩ := C02_rows_partitioned_by_baseline h32 hsent h1
  rw [share h32 hsent hreg h hr0 hr hq ⟨f1, f2⟩ hf hbl hlt]
  have s1 := share h32 hsent hreg h1 hr0 hr hq ⟨f1, f2⟩ hf hbl hlt
  by_cases hm : out1.map r = out1.map q
  · exact iff_of_true (by rw [hm]) ((s1.1 hm).trans hw)
  · obtain ⟨ra, rb, s⟩ := span h32 hsent hreg h1 (hin r hr)
    obtain ⟨qa, qb, s'⟩ := span h32 hsent hreg h1 (hin q hq)
    have br := hb1 ra s.la r hr s.ma
    have bq := hb1 qb s'.lb q hq s'.mb
    have er := hA r hr
    have eq := hA q hq
    have hbo : A1 (out1.map r) = A1 (out1.map q) ∧ A2 (out1.map r) = A2 (out1.map q) :=
      ⟨er.1.trans (hbl.1.trans eq.1.symm), er.2.trans (hbl.2.trans eq.2.symm)⟩
    have hto : out1.time (out1.map r) < out1.time (out1.map q) := by
      rcases lt_trichotomy (out1.time (out1.map r)) (out1.time (out1.map q)) with ht | ht | ht
      · exact ht
      · exact absurd (ag.nodup _ (hin r hr) _ (hin q hq) ht hbo.1 hbo.2) hm
      · have := ag.before _ (hin q hq) _ (hin r hr) hbo.1.symm hbo.2.symm ht qa qb ra rb s' s
        have := s.between r hr rfl
        have := s'.between q hq rfl
        omega
    have hqb : k qb = k q := by
      have h3 := s'.between q hq rfl
      by_contra hne
      have hl : k q < k qb := by omega
      have s2 := (share h32 hsent hreg h1 hr0 hq s'.lb ⟨f1.trans hbl.1, f2.trans hbl.2⟩
        (fun p hp ha hb => hf p hp (ha.trans hbl.1.symm) (hb.trans hbl.2.symm)) ⟨bq.1.symm, bq.2.symm⟩ hl).1 s'.mb.symm
      refine hm (s1.2 (le_trans ?_ s2))
      have : (k q : ℚ) ≤ k qb := by exact_mod_cast hl.le
      nlinarith
    rw [share_again h32 hsent hreg h1 hA h2 hr0 (hin r hr) (hin q hq) s s' ⟨f1.trans br.1.symm, f2.trans br.2.symm⟩
      (fun p hp ha hb => hf p hp (ha.trans br.1) (hb.trans br.2)) hbo hto, hqb]

/-- **C201**, in part: averaging regular samples first with one bin width and then the averaged rows with a larger one puts the
same rows together, into as many rows with the same intervals, as averaging with the larger one at once. The second step does
not fail. Missing: samples with gaps (`C201_gaps_violated`) and the averaged times (`C201_time_violated`). -/
theorem C201_two_steps_partial {n : Nat} {time interval : Nat → ℚ} {ant1 ant2 A1 A2 : Nat → Int}
    {flagRow flagRow2 flagRow3 : Option (Nat → Nat)} {w1 w2 sentinel t0 d : ℚ} {k : Nat → ℤ} {out1 out : RowMapOutput}
    (h32 : ∀ r < n, IsInt32 (ant1 r)) (hsent : ∀ r < n, time r < sentinel)
    (hreg : Regular n time interval ant1 ant2 t0 d k) (hw : w1 ≤ w2)
    (h1 : rowMapper sentinel n time interval ant1 ant2 flagRow w1 = .ok out1) (hA : Antennas n out1.map ant1 ant2 A1 A2)
    (h : rowMapper sentinel n time interval ant1 ant2 flagRow3 w2 = .ok out) :
    ∃ out2, rowMapper sentinel out1.outRows out1.time out1.interval A1 A2 flagRow2 w2 = .ok out2 ∧
      out2.outRows = out.outRows ∧
      (∀ r < n, ∀ q < n, out2.map (out1.map r) = out2.map (out1.map q) ↔ out.map r = out.map q) ∧
      ∀ r < n, out2.interval (out2.map (out1.map r)) = out.interval (out.map r) := by
  have ag := again h32 hsent hreg h1 hA
  obtain ⟨out2, h2, -⟩ := rowMapper_ok (interval := out1.interval) (flagRow := flagRow2) (secs := w2) ag.h32 ag.hsent ag.nodup
  obtain ⟨i1, o1, b1⟩ := C02_rows_partitioned_by_baseline h32 hsent h1
  obtain ⟨i2, o2, b2⟩ := C02_rows_partitioned_by_baseline ag.h32 ag.hsent h2
  obtain ⟨i3, o3, b3⟩ := C02_rows_partitioned_by_baseline h32 hsent h
  have key : ∀ r < n, ∀ q < n, out2.map (out1.map r) = out2.map (out1.map q) ↔ out.map r = out.map q := by
    intro r hr q hq
    by_cases hbl : ant1 r = ant1 q ∧ ant2 r = ant2 q
    · rcases lt_trichotomy (k r) (k q) with hl | he | hl
      · exact two_aux h32 hsent hreg hw h1 hA h2 h hr hq hbl hl
      · rw [k_inj h32 hsent hreg h1 hr hq hbl he]
        simp
      · have := two_aux h32 hsent hreg hw h1 hA h2 h hq hr ⟨hbl.1.symm, hbl.2.symm⟩ hl
        exact ⟨fun e => (this.1 e.symm).symm, fun e => (this.2 e.symm).symm⟩
    · refine iff_of_false (fun e => hbl ?_) (fun e => hbl (b3 r hr q hq e))
      have := b2 _ (i1 r hr) _ (i1 q hq) e
      have er := hA r hr
      have eq := hA q hq
      exact ⟨er.1.symm.trans (this.1.trans eq.1), er.2.symm.trans (this.2.trans eq.2)⟩
  refine ⟨out2, h2, le_antisymm ?_ ?_, key, fun r hr => ?_⟩
  · refine rows_eq key (fun x hx => ?_) i3
    obtain ⟨o, ho, rfl⟩ := o2 x hx
    obtain ⟨r, hr, rfl⟩ := o1 o ho
    exact ⟨r, hr, rfl⟩
  · exact rows_eq (fun r hr q hq => (key r hr q hq).symm) o3 fun r hr => i2 _ (i1 r hr)
  · rw [(C03_time_mean_interval_sum ag.h32 ag.hsent h2 _ (i2 _ (i1 r hr))).2.2,
      (C03_time_mean_interval_sum h32 hsent h _ (i3 r hr)).2.2,
      Finset.sum_congr rfl fun o ho => (C03_time_mean_interval_sum h32 hsent h1 o (by
        simp only [fibre, Finset.mem_filter, Finset.mem_range] at ho
        exact ho.1)).2.2]
    have hfil : ∀ o ∈ fibre out1.outRows out2.map (out2.map (out1.map r)),
        fibre n out1.map o = (fibre n out.map (out.map r)).filter fun p => out1.map p = o := by
      intro o ho
      simp only [fibre, Finset.mem_filter, Finset.mem_range] at ho
      ext p
      simp only [fibre, Finset.mem_filter, Finset.mem_range]
      constructor
      · rintro ⟨hp, rfl⟩
        exact ⟨⟨hp, (key p hp r hr).1 ho.2⟩, rfl⟩
      · rintro ⟨⟨hp, -⟩, he⟩
        exact ⟨hp, he⟩
    rw [Finset.sum_congr rfl fun o ho => by rw [hfil o ho]]
    refine Finset.sum_fiberwise_of_maps_to (fun p hp => ?_) _
    simp only [fibre, Finset.mem_filter, Finset.mem_range] at hp ⊢
    exact ⟨i1 p hp.1, (key p hp.1 r hr).2 hp.2⟩

/-- **C201**, in part: averaging regular samples again with the same bin width changes nothing: every averaged row stays alone,
with its time and interval. -/
theorem C201_idempotent_partial {n : Nat} {time interval : Nat → ℚ} {ant1 ant2 A1 A2 : Nat → Int}
    {flagRow flagRow2 : Option (Nat → Nat)} {secs sentinel t0 d : ℚ} {k : Nat → ℤ} {out : RowMapOutput}
    (h32 : ∀ r < n, IsInt32 (ant1 r)) (hsent : ∀ r < n, time r < sentinel)
    (hreg : Regular n time interval ant1 ant2 t0 d k)
    (h : rowMapper sentinel n time interval ant1 ant2 flagRow secs = .ok out) (hA : Antennas n out.map ant1 ant2 A1 A2) :
    ∃ out2, rowMapper sentinel out.outRows out.time out.interval A1 A2 flagRow2 secs = .ok out2 ∧
      out2.outRows = out.outRows ∧
      (∀ o < out.outRows, ∀ o' < out.outRows, out2.map o = out2.map o' → o = o') ∧
      ∀ o < out.outRows, out2.time (out2.map o) = out.time o ∧ out2.interval (out2.map o) = out.interval o := by
  obtain ⟨out2, h2, hrows, hkey, -⟩ := C201_two_steps_partial (flagRow2 := flagRow2) h32 hsent hreg le_rfl h hA h
  have ag := again h32 hsent hreg h hA
  obtain ⟨-, o1, -⟩ := C02_rows_partitioned_by_baseline h32 hsent h
  obtain ⟨i2, -, -⟩ := C02_rows_partitioned_by_baseline ag.h32 ag.hsent h2
  have hinj : ∀ o < out.outRows, ∀ o' < out.outRows, out2.map o = out2.map o' → o = o' := by
    intro o ho o' ho' he
    obtain ⟨r, hr, rfl⟩ := o1 o ho
    obtain ⟨q, hq, rfl⟩ := o1 o' ho'
    exact (hkey r hr q hq).1 he
  refine ⟨out2, h2, hrows, hinj, fun o ho => ?_⟩
  have hf : fibre out.outRows out2.map (out2.map o) = {o} := by
    ext p
    simp only [fibre, Finset.mem_filter, Finset.mem_range, Finset.mem_singleton]
    constructor
    · rintro ⟨hp, he⟩
      exact hinj p hp o ho he
    · rintro rfl
      exact ⟨ho, rfl⟩
  obtain ⟨-, ht, hi⟩ := C03_time_mean_interval_sum ag.h32 ag.hsent h2 _ (i2 o ho)
  rw [ht, hi, hf]
  simp

/-! ### Samples used in two steps -/

/-- A bin is made of smaller bins: those of `B2`, where `g` tells the one a sample is in. -/
private structure Nested (B B2 : Finset (Nat × Nat)) (g : Nat × Nat → Nat × Nat) (B1 : Nat × Nat → Finset (Nat × Nat)) : Prop where
  mem : ∀ p, p ∈ B ↔ g p ∈ B2 ∧ p ∈ B1 (g p)
  into : ∀ q ∈ B2, ∀ p ∈ B1 q, g p = q

section
variable {B B2 : Finset (Nat × Nat)} {g : Nat × Nat → Nat × Nat} {B1 : Nat × Nat → Finset (Nat × Nat)}
  {flag flag1 : Option (Nat → Nat → Nat → Nat)} {co : Nat}

private theorem nested_flag (hN : Nested B B2 g B1)
    (hfl : ∀ q ∈ B2, sampleFlagged flag1 q.1 q.2 co ↔ ∀ p ∈ B1 q, sampleFlagged flag p.1 p.2 co) :
    (∀ p ∈ B, sampleFlagged flag p.1 p.2 co) ↔ ∀ q ∈ B2, sampleFlagged flag1 q.1 q.2 co := by
  constructor
  · intro h q hq
    rw [hfl q hq]
    intro p hp
    refine h p ((hN.mem p).2 ?_)
    rw [hN.into q hq p hp]
    exact ⟨hq, hp⟩
  · intro h p hp
    obtain ⟨p1, p2⟩ := (hN.mem p).1 hp
    exact (hfl _ p1).1 (h _ p1) p p2

private theorem nested_used (hN : Nested B B2 g B1)
    (hfl : ∀ q ∈ B2, sampleFlagged flag1 q.1 q.2 co ↔ ∀ p ∈ B1 q, sampleFlagged flag p.1 p.2 co) :
    Nested (usedSamples flag B co) (usedSamples flag1 B2 co) g (fun q => usedSamples flag (B1 q) co) := by
  have hall := nested_flag hN hfl
  constructor
  · intro p
    unfold usedSamples
    by_cases hA : ∀ p ∈ B, sampleFlagged flag p.1 p.2 co
    · rw [if_pos hA, if_pos (hall.1 hA), hN.mem]
      constructor
      · rintro ⟨p1, p2⟩
        refine ⟨p1, ?_⟩
        rw [if_pos ((hfl _ p1).1 (hall.1 hA _ p1))]
        exact p2
      · rintro ⟨p1, p2⟩
        rw [if_pos ((hfl _ p1).1 (hall.1 hA _ p1))] at p2
        exact ⟨p1, p2⟩
    · rw [if_neg hA, if_neg (fun h => hA (hall.2 h)), Finset.mem_filter, Finset.mem_filter, hN.mem]
      constructor
      · rintro ⟨⟨p1, p2⟩, p3⟩
        have hn : ¬ ∀ p' ∈ B1 (g p), sampleFlagged flag p'.1 p'.2 co := fun h => p3 (h p p2)
        refine ⟨⟨p1, fun h => hn ((hfl _ p1).1 h)⟩, ?_⟩
        rw [if_neg hn, Finset.mem_filter]
        exact ⟨p2, p3⟩
      · rintro ⟨⟨p1, p2⟩, p3⟩
        rw [if_neg (fun h => p2 ((hfl _ p1).2 h)), Finset.mem_filter] at p3
        exact ⟨⟨p1, p3.1⟩, p3.2⟩
  · intro q hq p hp
    refine hN.into q ?_ p ?_
    · unfold usedSamples at hq
      split at hq
      · exact hq
      · exact (Finset.mem_filter.1 hq).1
    · simp only [usedSamples] at hp
      split at hp
      · exact hp
      · exact (Finset.mem_filter.1 hp).1

private theorem nested_sum {M : Type*} [AddCommMonoid M] (hN : Nested B B2 g B1) (x : Nat × Nat → M) :
    ∑ q ∈ B2, ∑ p ∈ B1 q, x p = ∑ p ∈ B, x p := by
  rw [← Finset.sum_fiberwise_of_maps_to (s := B) (t := B2) (g := g) (fun p hp => ((hN.mem p).1 hp).1)]
  refine Finset.sum_congr rfl fun q hq => Finset.sum_congr ?_ fun _ _ => rfl
  ext p
  rw [Finset.mem_filter, hN.mem]
  constructor
  · intro hp
    have := hN.into q hq p hp
    rw [this]
    exact ⟨⟨hq, hp⟩, rfl⟩
  · rintro ⟨⟨-, p2⟩, rfl⟩
    exact p2

end

/-- Rows that contribute in two steps are those that contribute in one. -/
private theorem contributors_two {n n1 : Nat} {m m1 m2 : Nat → Nat} {fr fr1 : Option (Nat → Nat)} {o o2 : Nat}
    (hin : ∀ r < n, m1 r < n1) (hm : ∀ r < n, m2 (m1 r) = o2 ↔ m r = o)
    (hfr : ∀ q < n1, rowFlagged fr1 q ↔ ∀ r ∈ fibre n m1 q, rowFlagged fr r) (r : Nat) :
    r ∈ contributors n m fr o ↔ m1 r ∈ contributors n1 m2 fr1 o2 ∧ r ∈ contributors n m1 fr (m1 r) := by
  have hf : ∀ r, r ∈ fibre n m o ↔ m1 r ∈ fibre n1 m2 o2 ∧ r < n := by
    intro r
    simp only [fibre, Finset.mem_filter, Finset.mem_range]
    constructor
    · rintro ⟨a, b⟩; exact ⟨⟨hin r a, (hm r a).2 b⟩, a⟩
    · rintro ⟨⟨-, b⟩, a⟩; exact ⟨a, (hm r a).1 b⟩
  have hf1 : ∀ r q, r ∈ fibre n m1 q ↔ r < n ∧ m1 r = q := by
    intro r q
    simp only [fibre, Finset.mem_filter, Finset.mem_range]
  have hf2 : ∀ q, q ∈ fibre n1 m2 o2 → q < n1 := fun q hq => Finset.mem_range.1 (Finset.mem_filter.1 hq).1
  have hall : (∀ r ∈ fibre n m o, rowFlagged fr r) ↔ ∀ q ∈ fibre n1 m2 o2, rowFlagged fr1 q := by
    constructor
    · intro h q hq
      rw [hfr q (hf2 q hq)]
      intro r hr
      obtain ⟨a, rfl⟩ := (hf1 _ _).1 hr
      exact h r ((hf r).2 ⟨hq, a⟩)
    · intro h r hr
      obtain ⟨a, b⟩ := (hf r).1 hr
      exact (hfr _ (hf2 _ a)).1 (h _ a) r ((hf1 _ _).2 ⟨b, rfl⟩)
  unfold contributors
  by_cases hA : ∀ r ∈ fibre n m o, rowFlagged fr r
  · rw [if_pos hA, if_pos (hall.1 hA), hf]
    constructor
    · rintro ⟨a, b⟩
      refine ⟨a, ?_⟩
      rw [if_pos ((hfr _ (hf2 _ a)).1 (hall.1 hA _ a)), hf1]
      exact ⟨b, rfl⟩
    · rintro ⟨a, b⟩
      rw [if_pos ((hfr _ (hf2 _ a)).1 (hall.1 hA _ a)), hf1] at b
      exact ⟨a, b.1⟩
  · rw [if_neg hA, if_neg (fun h => hA (hall.2 h)), Finset.mem_filter, Finset.mem_filter, hf]
    constructor
    · rintro ⟨⟨a, b⟩, c⟩
      have hn : ¬ ∀ r' ∈ fibre n m1 (m1 r), rowFlagged fr r' := fun h => c (h r ((hf1 _ _).2 ⟨b, rfl⟩))
      refine ⟨⟨a, fun h => hn ((hfr _ (hf2 _ a)).1 h)⟩, ?_⟩
      rw [if_neg hn, Finset.mem_filter, hf1]
      exact ⟨⟨b, rfl⟩, c⟩
    · rintro ⟨⟨a, b⟩, c⟩
      rw [if_neg (fun h => b ((hfr _ (hf2 _ a)).2 h)), Finset.mem_filter, hf1] at c
      exact ⟨⟨a, c.1.1⟩, c.2⟩

private theorem absent_two {K : Type*} [Field K] [DecidableEq K] {sqrt : K → K} {n nchan ncorr outChans : Nat} {rm : RowMapOutput}
    {flagRow : Option (Nat → Nat)} {cm : Nat → Nat} {cols : CubeCols K} {out : RowChanAverageOutput K}
    (h : rowChanAverage sqrt n nchan ncorr rm flagRow cm outChans cols = .ok out) :
    (cols.flag = none → out.flag = none) ∧ (cols.vis = none → out.vis = none) ∧
    (cols.sigmaSpectrum = none → out.sigmaSpectrum = none) := by
  unfold rowChanAverage at h
  simp only at h
  split at h
  · cases h
  · cases h
    refine ⟨fun h => ?_, fun h => ?_, fun h => ?_⟩ <;> simp [h]

set_option maxHeartbeats 1000000 in
/-- **C201**, in part: averaging in time and over `a` channels, and then the result with a larger bin width and over `b` channels,
gives the flags, weights, visibilities and sigmas of averaging with the larger width and over `a * b` channels at once, for
regular samples with weights of which a sum vanishes only when all of them do (weights are not negative).
Missing: samples with gaps (`C201_gaps_violated`). -/
theorem C201_visibilities_partial {K : Type*} [Field K] [DecidableEq K] (sqrt : K → K) {n : Nat} {time interval : Nat → ℚ}
    {ant1 ant2 A1 A2 : Nat → Int} {flagRow : Option (Nat → Nat)} {w1 w2 sentinel t0 d : ℚ} {k : Nat → ℤ}
    {out1 out : RowMapOutput} (h32 : ∀ r < n, IsInt32 (ant1 r)) (hsent : ∀ r < n, time r < sentinel)
    (hreg : Regular n time interval ant1 ant2 t0 d k) (hw : w1 ≤ w2) (h01 : ZeroOne n flagRow)
    (h1 : rowMapper sentinel n time interval ant1 ant2 flagRow w1 = .ok out1) (hA : Antennas n out1.map ant1 ant2 A1 A2)
    (h : rowMapper sentinel n time interval ant1 ant2 flagRow w2 = .ok out) (nchan ncorr a b : Nat) (ha : 1 ≤ a) (hb : 1 ≤ b)
    (cols : CubeCols K) (ws : Nat → Nat → Nat → K) (hws : cols.weightSpectrum = some ws)
    (hpos : ∀ co < ncorr, ∀ S : Finset (Nat × Nat), ∑ p ∈ S, ws p.1 p.2 co = 0 → ∀ p ∈ S, ws p.1 p.2 co = 0) :
    ∃ out2 one first second,
      rowMapper sentinel out1.outRows out1.time out1.interval A1 A2 out1.flagRow w2 = .ok out2 ∧
      rowChanAverage sqrt n nchan ncorr out flagRow (channelMapper nchan (a * b)).1 (channelMapper nchan (a * b)).2 cols
        = .ok one ∧
      rowChanAverage sqrt n nchan ncorr out1 flagRow (channelMapper nchan a).1 (channelMapper nchan a).2 cols = .ok first ∧
      rowChanAverage sqrt out1.outRows (channelMapper nchan a).2 ncorr out2 out1.flagRow
        (channelMapper (channelMapper nchan a).2 b).1 (channelMapper (channelMapper nchan a).2 b).2
        ⟨none, first.vis, first.flag, first.weightSpectrum, first.sigmaSpectrum⟩ = .ok second ∧
      ∀ r < n, ∀ f < nchan, ∀ co < ncorr,
        second.flag.map (· (out2.map (out1.map r)) (f / (a * b)) co) = one.flag.map (· (out.map r) (f / (a * b)) co) ∧
        second.weightSpectrum.map (· (out2.map (out1.map r)) (f / (a * b)) co) =
          one.weightSpectrum.map (· (out.map r) (f / (a * b)) co) ∧
        second.vis.map (· (out2.map (out1.map r)) (f / (a * b)) co) = one.vis.map (· (out.map r) (f / (a * b)) co) ∧
        ((∀ x, sqrt x ^ 2 = x) → second.sigmaSpectrum.map (· (out2.map (out1.map r)) (f / (a * b)) co) =
          one.sigmaSpectrum.map (· (out.map r) (f / (a * b)) co)) := by
  have hab : 1 ≤ a * b := Nat.one_le_iff_ne_zero.2 (Nat.mul_ne_zero (by omega) (by omega))
  obtain ⟨out2, h2, -, key, -⟩ := C201_two_steps_partial (flagRow2 := out1.flagRow) h32 hsent hreg hw h1 hA h
  have ag := again h32 hsent hreg h1 hA
  have h01' : ZeroOne out1.outRows out1.flagRow := by
    intro f hf o ho
    cases hfr : flagRow with
    | none => rw [(C05_flag_conjunction h32 hsent h1).1 hfr] at hf; cases hf
    | some f0 =>
      obtain ⟨g, hg, hgo⟩ := (C05_flag_conjunction h32 hsent h1).2 f0 hfr
      rw [hg] at hf
      cases hf
      exact (hgo o ho).1
  obtain ⟨i1, onto1, -⟩ := C02_rows_partitioned_by_baseline h32 hsent h1
  have hfr : ∀ q < out1.outRows, rowFlagged out1.flagRow q ↔ ∀ r ∈ fibre n out1.map q, rowFlagged flagRow r := by
    intro q hq
    cases hf : flagRow with
    | none =>
      rw [(C05_flag_conjunction h32 hsent h1).1 hf]
      obtain ⟨r, hr, e⟩ := onto1 q hq
      refine ⟨fun hh => hh.elim, fun hh => hh r ?_⟩
      simp [fibre, hr, e]
    | some f0 =>
      obtain ⟨g, hg, hgo⟩ := (C05_flag_conjunction h32 hsent h1).2 f0 hf
      rw [hg]
      show g q ≠ 0 ↔ ∀ r ∈ fibre n out1.map q, f0 r ≠ 0
      rw [← (hgo q hq).2]
      have := (hgo q hq).1
      omega
  obtain ⟨i2, -, -⟩ := C02_rows_partitioned_by_baseline ag.h32 ag.hsent h2
  obtain ⟨i3, -, -⟩ := C02_rows_partitioned_by_baseline h32 hsent h
  obtain ⟨a1, -, a3, -⟩ := C01_channel_map nchan a ha
  obtain ⟨b1, -, b3, -⟩ := C01_channel_map (channelMapper nchan a).2 b hb
  obtain ⟨c1, -, c3, -⟩ := C01_channel_map nchan (a * b) hab
  obtain ⟨one, e1, m1⟩ := rowChan_main sqrt nchan ncorr (a * b) cols h32 hsent h01 hab h
  obtain ⟨first, e2, m2⟩ := rowChan_main sqrt nchan ncorr a cols h32 hsent h01 ha h1
  obtain ⟨second, e3, m3⟩ := rowChan_main sqrt (channelMapper nchan a).2 ncorr b
    ⟨none, first.vis, first.flag, first.weightSpectrum, first.sigmaSpectrum⟩ ag.h32 ag.hsent h01' hb h2
  refine ⟨out2, one, first, second, h2, e1, e2, e3, fun r hr f hf co hco => ?_⟩
  obtain ⟨n1, n2, n3⟩ := absent_two e1
  obtain ⟨k1, k2, k3⟩ := absent_two e2
  obtain ⟨l1, l2, l3⟩ := absent_two e3
  have hch : ∀ f' < nchan, (channelMapper (channelMapper nchan a).2 b).1 ((channelMapper nchan a).1 f') = f' / (a * b) := by
    intro f' hf'
    rw [b1 _ (a3 f' hf'), a1 f' hf', Nat.div_div_eq_div_mul]
  have hfo := c3 f hf
  rw [c1 f hf] at hfo
  have hfo2 := b3 _ (a3 f hf)
  rw [hch f hf] at hfo2
  -- the bins
  obtain ⟨B, hB⟩ : ∃ B, B = binSamples n nchan out.map flagRow (channelMapper nchan (a * b)).1 (out.map r) (f / (a * b)) := ⟨_, rfl⟩
  obtain ⟨B2, hB2⟩ : ∃ B2, B2 = binSamples out1.outRows (channelMapper nchan a).2 out2.map out1.flagRow
    (channelMapper (channelMapper nchan a).2 b).1 (out2.map (out1.map r)) (f / (a * b)) := ⟨_, rfl⟩
  obtain ⟨B1, hB1⟩ : ∃ B1 : Nat × Nat → Finset (Nat × Nat),
    ∀ q, B1 q = binSamples n nchan out1.map flagRow (channelMapper nchan a).1 q.1 q.2 := ⟨_, fun _ => rfl⟩
  have hcon : ∀ m' fr' o r', r' ∈ contributors n m' fr' o → r' < n ∧ m' r' = o := by
    intro m' fr' o r' hr'
    unfold contributors at hr'
    split at hr'
    · simpa [fibre] using hr'
    · have := (Finset.mem_filter.1 hr').1
      simpa [fibre] using this
  have hcon2 : ∀ q ∈ contributors out1.outRows out2.map out1.flagRow (out2.map (out1.map r)), q < out1.outRows := by
    intro q hq
    unfold contributors at hq
    split at hq
    · exact Finset.mem_range.1 (Finset.mem_filter.1 hq).1
    · exact Finset.mem_range.1 (Finset.mem_filter.1 (Finset.mem_filter.1 hq).1).1
  have hN : Nested B B2 (fun p => (out1.map p.1, (channelMapper nchan a).1 p.2)) B1 := by
    constructor
    · intro p
      rw [hB, hB2, hB1]
      simp only [binSamples, Finset.mem_product]
      rw [contributors_two i1 (fun r' hr' => key r' hr' r hr) hfr p.1]
      simp only [fibre, Finset.mem_filter, Finset.mem_range]
      constructor
      · rintro ⟨⟨p1, p2⟩, p3, p4⟩
        rw [c1 _ p3] at p4
        exact ⟨⟨p1, a3 _ p3, by rw [hch _ p3, p4]⟩, p2, p3, trivial⟩
      · rintro ⟨⟨p1, -, p4⟩, p2, p3, -⟩
        rw [hch _ p3] at p4
        exact ⟨⟨p1, p2⟩, p3, by rw [c1 _ p3, p4]⟩
    · intro q _ p hp
      rw [hB1] at hp
      simp only [binSamples, Finset.mem_product, fibre, Finset.mem_filter, Finset.mem_range] at hp
      exact Prod.ext (hcon _ _ _ _ hp.1).2 hp.2.2
  have hq2 : ∀ q ∈ B2, q.1 < out1.outRows ∧ q.2 < (channelMapper nchan a).2 := by
    intro q hq
    rw [hB2] at hq
    simp only [binSamples, Finset.mem_product, fibre, Finset.mem_filter, Finset.mem_range] at hq
    exact ⟨hcon2 _ hq.1, hq.2.1⟩
  have q1 := m1 _ (i3 r hr) _ hfo co hco B hB _ rfl _ rfl
  have q3 := m3 _ (i2 _ (i1 r hr)) _ hfo2 co hco B2 hB2 _ rfl _ rfl
  have q2 := fun q hq => m2 _ (hq2 q hq).1 _ (hq2 q hq).2 co hco (B1 q) (hB1 q) _ rfl _ rfl
  obtain ⟨q0, hq0⟩ := q3.1
  have hfl : ∀ q ∈ B2, sampleFlagged first.flag q.1 q.2 co ↔ ∀ p ∈ B1 q, sampleFlagged cols.flag p.1 p.2 co := by
    intro q hq
    cases hf : cols.flag with
    | none =>
      rw [k1 hf]
      obtain ⟨p, hp⟩ := (q2 q hq).1
      exact ⟨fun hh => hh.elim, fun hh => hh p hp⟩
    | some fl =>
      obtain ⟨F, hF, d1, d2⟩ := (q2 q hq).2.2.2.1 fl hf
      rw [hF]
      show F q.1 q.2 co ≠ 0 ↔ ∀ p ∈ B1 q, fl p.1 p.2 co ≠ 0
      rw [← d2]
      omega
  have hall := nested_flag hN hfl
  have hU := nested_used hN hfl
  have hsub : ∀ q ∈ usedSamples first.flag B2 co, q ∈ B2 := by
    intro q hq
    unfold usedSamples at hq
    split at hq
    · exact hq
    · exact (Finset.mem_filter.1 hq).1
  -- the weights of the first step
  obtain ⟨W, hW, -⟩ := (q2 q0 hq0).2.2.2.2.1 ws hws
  have hWv : ∀ q ∈ B2, W q.1 q.2 co = ∑ p ∈ usedSamples cols.flag (B1 q) co, ws p.1 p.2 co := by
    intro q hq
    obtain ⟨W', hW', e⟩ := (q2 q hq).2.2.2.2.1 ws hws
    rw [hW] at hW'
    cases hW'
    exact e
  rw [hws] at q1 q2
  rw [hW] at q3
  simp only [sampleWt] at q1 q2 q3
  have hWsum : ∑ q ∈ usedSamples first.flag B2 co, W q.1 q.2 co = ∑ p ∈ usedSamples cols.flag B co, ws p.1 p.2 co := by
    rw [← nested_sum hU]
    exact Finset.sum_congr rfl fun q hq => hWv q (hsub q hq)
  have hzero : (∀ p ∈ usedSamples cols.flag B co, ws p.1 p.2 co = 0) →
      ∀ q ∈ usedSamples first.flag B2 co, W q.1 q.2 co = 0 := by
    intro hz q hq
    rw [hWv q (hsub q hq)]
    refine Finset.sum_eq_zero fun p hp => hz p ((hU.mem p).2 ?_)
    rw [hU.into q hq p hp]
    exact ⟨hq, hp⟩
  refine ⟨?_, ?_, ?_, ?_⟩
  · cases hf : cols.flag with
    | none => rw [n1 hf, l1 (k1 hf)]; rfl
    | some fl =>
      obtain ⟨F, hF, -⟩ := (q2 q0 hq0).2.2.2.1 fl hf
      obtain ⟨G, hG, d1, d2⟩ := q3.2.2.2.1 F hF
      obtain ⟨H, hH, g1, g2⟩ := q1.2.2.2.1 fl hf
      rw [hG, hH]
      simp only [Option.map_some, Option.some.injEq]
      rw [hF, hf] at hall
      have hall' : (∀ p ∈ B, fl p.1 p.2 co ≠ 0) ↔ ∀ q ∈ B2, F q.1 q.2 co ≠ 0 := hall
      rw [← hall', ← g2] at d2
      omega
  · obtain ⟨u, hu, hu1⟩ := q1.2.2.2.2.1 ws rfl
    obtain ⟨u2, hu2, hu3⟩ := q3.2.2.2.2.1 W rfl
    rw [hu, hu2]
    simp only [Option.map_some, Option.some.injEq]
    rw [hu1, hu3, hWsum]
  · cases hv : cols.vis with
    | none => rw [n2 hv, l2 (k2 hv)]; rfl
    | some v =>
      obtain ⟨V, hV, -⟩ := (q2 q0 hq0).2.2.1 v hv
      have hVv : ∀ q ∈ B2, V q.1 q.2 co * W q.1 q.2 co = ∑ p ∈ usedSamples cols.flag (B1 q) co, v p.1 p.2 co * ws p.1 p.2 co := by
        intro q hq
        obtain ⟨V', hV', e, e0⟩ := (q2 q hq).2.2.1 v hv
        rw [hV] at hV'
        cases hV'
        rw [hWv q hq]
        by_cases hs : ∑ p ∈ usedSamples cols.flag (B1 q) co, ws p.1 p.2 co = 0
        · rw [hs, mul_zero, eq_comm]
          exact Finset.sum_eq_zero fun p hp => by rw [hpos co hco _ hs p hp, mul_zero]
        · rw [e hs]
          exact div_mul_cancel₀ _ hs
      obtain ⟨x, hx, x1, x0⟩ := q1.2.2.1 v hv
      obtain ⟨y, hy, y1, y0⟩ := q3.2.2.1 V hV
      rw [hx, hy]
      simp only [Option.map_some, Option.some.injEq]
      by_cases hs : ∑ p ∈ usedSamples cols.flag B co, ws p.1 p.2 co = 0
      · rw [x0 (hpos co hco _ hs), y0 (hzero (hpos co hco _ hs))]
      · rw [x1 hs, y1 (by rw [hWsum]; exact hs), hWsum, ← nested_sum hU fun p => v p.1 p.2 co * ws p.1 p.2 co,
          Finset.sum_congr rfl fun q hq => hVv q (hsub q hq)]
  · intro hsq
    cases hv : cols.sigmaSpectrum with
    | none => rw [n3 hv, l3 (k3 hv)]; rfl
    | some v =>
      obtain ⟨V, hV, -⟩ := (q2 q0 hq0).2.2.2.2.2 v hv
      have hVv : ∀ q ∈ B2, V q.1 q.2 co ^ 2 * W q.1 q.2 co ^ 2 =
          ∑ p ∈ usedSamples cols.flag (B1 q) co, v p.1 p.2 co ^ 2 * ws p.1 p.2 co ^ 2 := by
        intro q hq
        obtain ⟨V', hV', e, e0⟩ := (q2 q hq).2.2.2.2.2 v hv
        rw [hV] at hV'
        cases hV'
        rw [hWv q hq]
        by_cases hs : ∑ p ∈ usedSamples cols.flag (B1 q) co, ws p.1 p.2 co = 0
        · rw [hs, eq_comm]
          rw [Finset.sum_eq_zero fun p hp => by rw [hpos co hco _ hs p hp]; simp]
          simp
        · rw [e hs, hsq]
          exact div_mul_cancel₀ _ (pow_ne_zero 2 hs)
      obtain ⟨x, hx, x1, x0⟩ := q1.2.2.2.2.2 v hv
      obtain ⟨y, hy, y1, y0⟩ := q3.2.2.2.2.2 V hV
      rw [hx, hy]
      simp only [Option.map_some, Option.some.injEq]
      by_cases hs : ∑ p ∈ usedSamples cols.flag B co, ws p.1 p.2 co = 0
      · rw [x0 (hpos co hco _ hs), y0 (hzero (hpos co hco _ hs))]
      · rw [x1 hs, y1 (by rw [hWsum]; exact hs), hWsum, ← nested_sum hU fun p => v p.1 p.2 co ^ 2 * ws p.1 p.2 co ^ 2,
          Finset.sum_congr rfl fun q hq => hVv q (hsub q hq)]

/-- Three rows of which the first two are averaged. -/
private theorem three {time interval : Nat → ℚ} {secs sentinel : ℚ} {out : RowMapOutput}
    (hsent : ∀ r < 3, time r < sentinel)
    (h : rowMapper sentinel 3 time interval (fun _ => 0) (fun _ => 1) none secs = .ok out)
    (h01 : out.map 0 = out.map 1) (h02 : out.map 0 ≠ out.map 2) :
    out.outRows = 2 ∧ (∀ o < out.outRows, o = out.map 0 ∨ o = out.map 2) ∧
    out.time (out.map 0) = (time 0 + time 1) / 2 ∧ out.interval (out.map 0) = interval 0 + interval 1 ∧
    out.time (out.map 2) = time 2 ∧ out.interval (out.map 2) = interval 2 := by
  have h32 : ∀ r < 3, IsInt32 ((fun _ => 0 : Nat → Int) r) := by intro r _; unfold IsInt32; constructor <;> norm_num
  obtain ⟨hin, honto, -⟩ := C02_rows_partitioned_by_baseline h32 hsent h
  have hall : ∀ o < out.outRows, o = out.map 0 ∨ o = out.map 2 := by
    intro o ho
    obtain ⟨r, hr, rfl⟩ := honto o ho
    rcases (by omega : r = 0 ∨ r = 1 ∨ r = 2) with rfl | rfl | rfl
    · exact Or.inl rfl
    · exact Or.inl h01.symm
    · exact Or.inr rfl
  have f0 : fibre 3 out.map (out.map 0) = {0, 1} := by
    ext p
    simp only [fibre, Finset.mem_filter, Finset.mem_range, Finset.mem_insert, Finset.mem_singleton]
    constructor
    · rintro ⟨hp, he⟩
      rcases (by omega : p = 0 ∨ p = 1 ∨ p = 2) with rfl | rfl | rfl
      · simp
      · simp
      · exact absurd he.symm h02
    · rintro (rfl | rfl)
      · exact ⟨by omega, rfl⟩
      · exact ⟨by omega, h01.symm⟩
  have f2 : fibre 3 out.map (out.map 2) = {2} := by
    ext p
    simp only [fibre, Finset.mem_filter, Finset.mem_range, Finset.mem_singleton]
    constructor
    · rintro ⟨hp, he⟩
      rcases (by omega : p = 0 ∨ p = 1 ∨ p = 2) with rfl | rfl | rfl
      · exact absurd he h02
      · exact absurd (h01.trans he) h02
      · rfl
    · rintro rfl
      exact ⟨by omega, rfl⟩
  obtain ⟨-, t0, i0⟩ := C03_time_mean_interval_sum h32 hsent h _ (hin 0 (by omega))
  obtain ⟨-, t2, i2⟩ := C03_time_mean_interval_sum h32 hsent h _ (hin 2 (by omega))
  rw [f0] at t0 i0
  rw [f2] at t2 i2
  have hrows : out.outRows = 2 := by
    have a := hin 0 (by omega)
    have b := hin 2 (by omega)
    have c0 := fun hh => hall 0 hh
    have c1 := fun hh => hall 1 hh
    have c2 := fun hh => hall 2 hh
    omega
  refine ⟨hrows, hall, ?_, ?_, ?_, ?_⟩
  · rw [t0]; simp
  · rw [i0]; simp
  · rw [t2]; simp
  · rw [i2]; simp

/-- Three dumps of one baseline are regular samples. -/
private theorem regular_three : Regular 3 (fun r => (r : ℚ)) (fun _ => 1) (fun _ => 0) (fun _ => 1) 0 1 (fun r => (r : ℤ)) := by
  refine ⟨by norm_num, fun r _ => by simp, fun _ _ => rfl, fun r hr q hq _ _ j h1 h2 => ⟨j.toNat, ?_, rfl, rfl, ?_⟩⟩
  · omega
  · show ((j.toNat : ℕ) : ℤ) = j
    omega

/-- **C201** (disagreement) The times of two steps are means of means: of three regular samples at 0, 1 and 2, averaged in twos
and then in threes, the averaged time is 5/4, and 1 if they are averaged at once. The example also meets the hypotheses of
`C201_two_steps_partial`. -/
theorem C201_time_violated : ∃ out1 out2 out : RowMapOutput,
    Regular 3 (fun r => (r : ℚ)) (fun _ => 1) (fun _ => 0) (fun _ => 1) 0 1 (fun r => (r : ℤ)) ∧
    rowMapper 1000 3 (fun r => (r : ℚ)) (fun _ => 1) (fun _ => 0) (fun _ => 1) none 2 = .ok out1 ∧
    rowMapper 1000 out1.outRows out1.time out1.interval (fun _ => 0) (fun _ => 1) none 3 = .ok out2 ∧
    rowMapper 1000 3 (fun r => (r : ℚ)) (fun _ => 1) (fun _ => 0) (fun _ => 1) none 3 = .ok out ∧
    out1.outRows = 2 ∧ out2.time (out2.map (out1.map 0)) = 5 / 4 ∧ out.time (out.map 0) = 1 := by
  have h32 : ∀ r < 3, IsInt32 ((fun _ => 0 : Nat → Int) r) := by intro r _; unfold IsInt32; constructor <;> norm_num
  have hsent : ∀ r < (3 : Nat), ((fun r => (r : ℚ)) : Nat → ℚ) r < 1000 := by decide +kernel
  have hdup : NoDup 3 (fun r => (r : ℚ)) (fun _ => 0) (fun _ => 1) := by
    intro r _ q _ he _ _
    have he' : (r : ℚ) = q := he
    exact_mod_cast he'
  obtain ⟨out1, h1, -⟩ := rowMapper_ok (interval := fun _ => 1) (flagRow := none) (secs := 2) h32 hsent hdup
  obtain ⟨out, h, -⟩ := rowMapper_ok (interval := fun _ => 1) (flagRow := none) (secs := 3) h32 hsent hdup
  have hfirst : ∀ p : ℕ, p < 3 → (0 : Int) = 0 → (1 : Int) = 1 → ((0 : ℕ) : ℤ) ≤ (p : ℤ) := fun p _ _ _ => by omega
  have s01 := (share h32 hsent regular_three h1 (r0 := 0) (r := 0) (q := 1) (by omega) (by omega) (by omega) ⟨rfl, rfl⟩ hfirst
    ⟨rfl, rfl⟩ (by norm_num)).2 (by norm_num)
  have s02 := mt (share h32 hsent regular_three h1 (r0 := 0) (r := 0) (q := 2) (by omega) (by omega) (by omega) ⟨rfl, rfl⟩
    hfirst ⟨rfl, rfl⟩ (by norm_num)).1 (by norm_num)
  have u01 := (share h32 hsent regular_three h (r0 := 0) (r := 0) (q := 1) (by omega) (by omega) (by omega) ⟨rfl, rfl⟩ hfirst
    ⟨rfl, rfl⟩ (by norm_num)).2 (by norm_num)
  have u02 := (share h32 hsent regular_three h (r0 := 0) (r := 0) (q := 2) (by omega) (by omega) (by omega) ⟨rfl, rfl⟩ hfirst
    ⟨rfl, rfl⟩ (by norm_num)).2 (by norm_num)
  obtain ⟨hrows, hall, t0, -, t2, -⟩ := three hsent h1 s01 s02
  have hA : Antennas 3 out1.map (fun _ => 0) (fun _ => 1) (fun _ => 0) (fun _ => 1) := fun _ _ => ⟨rfl, rfl⟩
  obtain ⟨out2, h2, -, hkey, -⟩ := C201_two_steps_partial (flagRow2 := none) h32 hsent regular_three (by norm_num) h1 hA h
  refine ⟨out1, out2, out, regular_three, h1, h2, h, hrows, ?_, ?_⟩
  · have ag := again h32 hsent regular_three h1 hA
    obtain ⟨i1, -, -⟩ := C02_rows_partitioned_by_baseline h32 hsent h1
    obtain ⟨i2, -, -⟩ := C02_rows_partitioned_by_baseline ag.h32 ag.hsent h2
    obtain ⟨-, ht, -⟩ := C03_time_mean_interval_sum ag.h32 ag.hsent h2 _ (i2 _ (i1 0 (by omega)))
    have hf : fibre out1.outRows out2.map (out2.map (out1.map 0)) = {out1.map 0, out1.map 2} := by
      ext o
      simp only [fibre, Finset.mem_filter, Finset.mem_range, Finset.mem_insert, Finset.mem_singleton]
      constructor
      · rintro ⟨ho, -⟩
        exact hall o ho
      · rintro (rfl | rfl)
        · exact ⟨i1 0 (by omega), rfl⟩
        · exact ⟨i1 2 (by omega), ((hkey 0 (by omega) 2 (by omega)).2 u02).symm⟩
    rw [ht, hf, Finset.sum_pair s02, Finset.card_pair s02, t0, t2]
    norm_num
  · obtain ⟨i3, -, -⟩ := C02_rows_partitioned_by_baseline h32 hsent h
    obtain ⟨-, ht, -⟩ := C03_time_mean_interval_sum h32 hsent h _ (i3 0 (by omega))
    have hf : fibre 3 out.map (out.map 0) = {0, 1, 2} := by
      ext p
      simp only [fibre, Finset.mem_filter, Finset.mem_range, Finset.mem_insert, Finset.mem_singleton]
      constructor
      · rintro ⟨hp, -⟩
        omega
      · rintro (rfl | rfl | rfl)
        · exact ⟨by omega, rfl⟩
        · exact ⟨by omega, u01.symm⟩
        · exact ⟨by omega, u02.symm⟩
    rw [ht, hf]
    norm_num

/-- The example also meets the hypotheses of `C201_visibilities_partial`, with the second row and one sample flagged and unit
weights of two channels. -/
example {out1 out : RowMapOutput}
    (h1 : rowMapper 1000 3 (fun r => (r : ℚ)) (fun _ => 1) (fun _ => 0) (fun _ => 1) (some fun r => if r = 1 then 1 else 0) 2 = .ok out1)
    (h : rowMapper 1000 3 (fun r => (r : ℚ)) (fun _ => 1) (fun _ => 0) (fun _ => 1) (some fun r => if r = 1 then 1 else 0) 3 = .ok out) :=
  C201_visibilities_partial (K := ℚ) id (A1 := fun _ => 0) (A2 := fun _ => 1)
    (by intro r _; unfold IsInt32; constructor <;> norm_num) (by decide +kernel) regular_three (by norm_num)
    (by intro f hf r _; cases hf; by_cases h : r = 1 <;> simp [h]) h1
    (fun _ _ => ⟨rfl, rfl⟩) h 2 1 1 2 (by norm_num) (by norm_num)
    ⟨none, some fun r f _ => r + f, some fun r f _ => if r = 0 ∧ f = 1 then 1 else 0, some fun _ _ _ => 1, none⟩ (fun _ _ _ => 1) rfl
    (fun _ _ S hS p hp => by
      have h0 : (S.card : ℚ) = 0 := by simpa using hS
      have : S.card = 0 := by exact_mod_cast h0
      rw [Finset.card_eq_zero] at this
      rw [this] at hp
      simp at hp)

/-- **C201** (disagreement) With a gap between samples averaging again with the same bin width is not without effect: samples at
0 and 4 are averaged in a bin of 5, the sample at 5 stays alone, but is averaged with the others the second time. -/
theorem C201_gaps_violated : ∃ (time : Nat → ℚ) (out out2 : RowMapOutput),
    rowMapper 1000 3 time (fun _ => 1) (fun _ => 0) (fun _ => 1) none 5 = .ok out ∧
    rowMapper 1000 out.outRows out.time out.interval (fun _ => 0) (fun _ => 1) none 5 = .ok out2 ∧
    out.map 0 ≠ out.map 2 ∧ out2.map (out.map 0) = out2.map (out.map 2) := by
  have h32 : ∀ n, ∀ r < n, IsInt32 ((fun _ => 0 : Nat → Int) r) := by
    intro n r _; unfold IsInt32; constructor <;> norm_num
  let time : Nat → ℚ := fun r => [0, 4, 5].getD r 0
  have e0 : time 0 = 0 := rfl
  have e1 : time 1 = 4 := rfl
  have e2 : time 2 = 5 := rfl
  have hsent : ∀ r < (3 : Nat), time r < 1000 := by decide +kernel
  obtain ⟨out, h, -⟩ := rowMapper_ok (n := 3) (time := time) (interval := fun _ => 1) (ant1 := fun _ => 0) (ant2 := fun _ => 1)
    (flagRow := none) (secs := 5) (h32 3) hsent (by unfold NoDup; decide +kernel)
  have hmono : ∀ r < 3, ∀ q < 3, (0 : Int) = 0 → (1 : Int) = 1 → time r < time q →
      lowEdge time (fun _ => 1) r ≤ lowEdge time (fun _ => 1) q ∧ highEdge time (fun _ => 1) r ≤ highEdge time (fun _ => 1) q := by
    intro r _ q _ _ _ hl
    simp only [lowEdge, highEdge]
    constructor <;> linarith
  have hfirst : ∀ p < 3, (0 : Int) = 0 → (1 : Int) = 1 → time 0 ≤ time p := by
    intro p hp _ _
    rcases (by omega : p = 0 ∨ p = 1 ∨ p = 2) with rfl | rfl | rfl <;> simp [e0, e1, e2]
  have s01 := (C08_sharing_partial (h32 3) hsent hmono h 0 0 1 (by omega) (by omega) (by omega) ⟨rfl, rfl⟩ hfirst ⟨rfl, rfl⟩
    (by rw [e0, e1]; norm_num)).2 (by simp only [lowEdge, highEdge, e0, e1]; norm_num)
  have s02 := mt (C08_sharing_partial (h32 3) hsent hmono h 0 0 2 (by omega) (by omega) (by omega) ⟨rfl, rfl⟩ hfirst ⟨rfl, rfl⟩
    (by rw [e0, e2]; norm_num)).1 (by simp only [lowEdge, highEdge, e0, e2]; norm_num)
  obtain ⟨hrows, hall, t0, i0, t2, i2⟩ := three hsent h s01 s02
  rw [e0, e1] at t0
  rw [e2] at t2
  obtain ⟨hin, -, -⟩ := C02_rows_partitioned_by_baseline (h32 3) hsent h
  have hsent' : ∀ o < out.outRows, out.time o < 1000 := by
    intro o ho
    rcases hall o ho with rfl | rfl
    · rw [t0]; norm_num
    · rw [t2]; norm_num
  have hlt : out.time (out.map 0) < out.time (out.map 2) := by rw [t0, t2]; norm_num
  obtain ⟨out2, h2, -⟩ := rowMapper_ok (n := out.outRows) (time := out.time) (interval := out.interval) (ant1 := fun _ => 0)
    (ant2 := fun _ => 1) (flagRow := none) (secs := 5) (h32 _) hsent' (by
      intro o ho o' ho' ht _ _
      rcases hall o ho with rfl | rfl <;> rcases hall o' ho' with rfl | rfl
      · rfl
      · exact absurd ht hlt.ne
      · exact absurd ht hlt.ne'
      · rfl)
  refine ⟨time, out, out2, h, h2, s02, ?_⟩
  refine (C08_sharing_partial (h32 _) hsent' ?_ h2 (out.map 0) (out.map 0) (out.map 2) (hin 0 (by omega)) (hin 0 (by omega))
    (hin 2 (by omega)) ⟨rfl, rfl⟩ ?_ ⟨rfl, rfl⟩ hlt).2 ?_
  · intro o ho o' ho' _ _ hl
    rcases hall o ho with rfl | rfl <;> rcases hall o' ho' with rfl | rfl
    · exact absurd hl (lt_irrefl _)
    · simp only [lowEdge, highEdge, t0, t2, i0, i2]
      norm_num
    · exact absurd hl hlt.not_gt
    · exact absurd hl (lt_irrefl _)
  · intro p hp _ _
    rcases hall p hp with rfl | rfl
    · exact le_rfl
    · exact hlt.le
  · simp only [lowEdge, highEdge, t0, t2, i0, i2]
    norm_num

end Verif.Averaging
