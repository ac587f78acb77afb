/-
Main correctness result about `row_mapper`.
-/
import Verif.Averaging.LemmasMono

set_option autoImplicit false

namespace Verif.Averaging

open Function

/-- Facts about the output of `row_mapper`, with `fibre o` the set of input rows mapped to `o`. -/
structure RowMapOK (n : Nat) (time interval : Nat → ℚ) (ant1 ant2 : Nat → Int)
    (flagRow : Option (Nat → Nat)) (secs sentinel : ℚ) (out : RowMapOutput) : Prop where
  inRange : ∀ r < n, out.map r < out.outRows
  onto : ∀ o < out.outRows, ∃ r < n, out.map r = o
  sameBl : ∀ r < n, ∀ q < n, out.map r = out.map q → ant1 r = ant1 q ∧ ant2 r = ant2 q
  time_ok : ∀ o < out.outRows, out.time o =
    (∑ r ∈ (Finset.range n).filter (fun r => out.map r = o), time r) /
      ((Finset.range n).filter (fun r => out.map r = o)).card
  int_ok : ∀ o < out.outRows, out.interval o =
    ∑ r ∈ (Finset.range n).filter (fun r => out.map r = o), interval r
  sorted : ∀ o o', o ≤ o' → o' < out.outRows → out.time o ≤ out.time o'
  flag_none : flagRow = none → out.flagRow = none
  flag_ok : ∀ f, flagRow = some f → ∃ g, out.flagRow = some g ∧
    ∀ o < out.outRows, ((∀ r < n, out.map r = o → f r ≠ 0) → g o = 1) ∧
      ((∃ r < n, out.map r = o ∧ f r = 0) → g o = 0)
  bins : ∃ (blInv timeInv : Nat → Nat) (ntime : Nat) (rl : Nat → Nat → Option Nat),
    (∀ r < n, ∀ q < n, blInv r = blInv q ↔ (ant1 r = ant1 q ∧ ant2 r = ant2 q)) ∧
    (∀ r < n, ∀ q < n, timeInv r < timeInv q ↔ time r < time q) ∧
    (∀ r < n, timeInv r < ntime) ∧
    (∀ t < ntime, ∃ r < n, timeInv r = t) ∧
    (∀ b t r, rl b t = some r ↔ r < n ∧ blInv r = b ∧ timeInv r = t) ∧
    (∀ r < n, ∀ q < n, out.map r = out.map q ↔ blInv r = blInv q ∧
      (blLoop time interval (isFlagged flagRow) secs sentinel ntime (rl (blInv r))).binLookup
        (timeInv r) =
      (blLoop time interval (isFlagged flagRow) secs sentinel ntime (rl (blInv q))).binLookup
        (timeInv q))
  order : ∀ r < n, ∀ q < n, out.map r < out.map q → out.time (out.map r) < out.time (out.map q) ∨
    (out.time (out.map r) = out.time (out.map q) ∧ pack32 (ant1 r) (ant2 r) < pack32 (ant1 q) (ant2 q))

theorem rowMapper_ok {n : Nat} {time interval : Nat → ℚ} {ant1 ant2 : Nat → Int}
    {flagRow : Option (Nat → Nat)} {secs sentinel : ℚ}
    (h32 : ∀ r < n, IsInt32 (ant1 r)) (hsent : ∀ r < n, time r < sentinel)
    (hdup : NoDup n time ant1 ant2) :
    ∃ out, rowMapper sentinel n time interval ant1 ant2 flagRow secs = .ok out ∧
      RowMapOK n time interval ant1 ant2 flagRow secs sentinel out := by
  unfold rowMapper
  have hub := uniqueInternal_ok n (fun r => pack32 (ant1 r) (ant2 r))
  have hut := uniqueInternal_ok n time
  have hinj : ∀ r < n, ∀ q < n, (uniqueBaselines n ant1 ant2).inv r = (uniqueBaselines n ant1 ant2).inv q →
      (uniqueTime n time).inv r = (uniqueTime n time).inv q → r = q := by
    intro r hr q hq h1 h2
    have h1' := (hub.inv_eq_iff hr hq).1 h1
    have h2' := (hut.inv_eq_iff hr hq).1 h2
    have h3 := (pack32_inj (h32 r hr) (h32 q hq)).1 h1'
    exact hdup r hr q hq h2' h3.1 h3.2
  obtain ⟨rl, hrl, hrlspec⟩ := rowLookup_of_inj hinj
  have hblEq : ∀ r < n, ∀ q < n, (uniqueBaselines n ant1 ant2).inv r = (uniqueBaselines n ant1 ant2).inv q ↔
      (ant1 r = ant1 q ∧ ant2 r = ant2 q) := by
    intro r hr q hq
    rw [← pack32_inj (h32 r hr) (h32 q hq)]
    exact hub.inv_eq_iff hr hq
  have hblMono : ∀ r < n, ∀ q < n, (uniqueBaselines n ant1 ant2).inv r < (uniqueBaselines n ant1 ant2).inv q ↔
      pack32 (ant1 r) (ant2 r) < pack32 (ant1 q) (ant2 q) := fun r hr q hq => hub.inv_lt_iff hr hq
  have hblLt : ∀ r < n, (uniqueBaselines n ant1 ant2).inv r < (uniqueBaselines n ant1 ant2).uniq.length := by
    intro r hr
    have := hub.inv_lt hr
    simpa [uniqueBaselines] using this
  have htLt : ∀ r < n, (uniqueTime n time).inv r < (uniqueTime n time).uniq.length :=
    fun r hr => hut.inv_lt hr
  have htMono : ∀ r < n, ∀ q < n, (uniqueTime n time).inv r < (uniqueTime n time).inv q ↔ time r < time q :=
    fun r hr q hq => hut.inv_lt_iff hr hq
  have htOnto : ∀ t < (uniqueTime n time).uniq.length, ∃ r < n, (uniqueTime n time).inv r = t :=
    fun t ht => hut.inv_onto ht
  -- forget how the unique arrays were made
  simp only
  revert hinj hrl hrlspec hblEq hblMono hblLt htLt htMono htOnto
  generalize uniqueBaselines n ant1 ant2 = ub
  generalize uniqueTime n time = ut
  clear hub hut
  generalize ut.uniq.length = ntime
  generalize ub.uniq.length = nbl
  generalize ub.inv = blInv
  generalize ut.inv = timeInv
  intro hinj hrl hrlspec hblEq hblMono hblLt htLt htMono htOnto
  rw [hrl]
  simp only [bind, Except.bind, pure, Except.pure]
  set bls := fun bl => blLoop time interval (isFlagged flagRow) secs sentinel ntime (rl bl) with hbls
  have hbl : ∀ bl, BlOK time interval (isFlagged flagRow) sentinel ntime (rl bl) (bls bl) :=
    fun bl => blLoop_ok _ _ _ _ _ _ _
  set flatTime := fun k => (bls (k / ntime)).timeLookup (k % ntime) with hflat
  set flatInt := fun k => (bls (k / ntime)).intervalLookup (k % ntime) with hflatI
  set outRows := forRange nbl 0 fun bl acc => acc + (bls bl).tbin with hout
  set order := argsort (nbl * ntime) flatTime with horder
  have hsortedL := argsort_pairwise_le (nbl * ntime) flatTime
  have hnd := argsort_nodup (nbl * ntime) flatTime
  have hperm := argsort_perm (nbl * ntime) flatTime
  -- bin of a row
  have hsome : ∀ r < n, ∃ b, (bls (blInv r)).binLookup (timeInv r) = some b := by
    intro r hr
    have : (bls (blInv r)).binLookup (timeInv r) ≠ none := by
      rw [(hbl _).dom]
      refine ⟨htLt r hr, ?_⟩
      rw [(hrlspec _ _ r).2 ⟨hr, rfl, rfl⟩]; simp
    exact Option.ne_none_iff_exists'.1 this
  choose! tb htb using hsome
  have htbLt : ∀ r < n, tb r < (bls (blInv r)).tbin := fun r hr => (hbl _).bound _ _ (htb r hr)
  have htbLt' : ∀ r < n, tb r < ntime := fun r hr => lt_of_lt_of_le (htbLt r hr) (hbl _).room
  set flat := fun r => blInv r * ntime + tb r with hflatdef
  have hdiv : ∀ r < n, flat r / ntime = blInv r := by
    intro r hr
    have := htbLt' r hr
    simp only [hflatdef]
    rw [Nat.mul_comm, Nat.mul_add_div (by omega), Nat.div_eq_of_lt this, Nat.add_zero]
  have hmod : ∀ r < n, flat r % ntime = tb r := by
    intro r hr
    have := htbLt' r hr
    simp only [hflatdef]
    rw [Nat.mul_comm, Nat.mul_add_mod, Nat.mod_eq_of_lt this]
  have hflatLt : ∀ r < n, flat r < nbl * ntime := by
    intro r hr
    have h1 := hblLt r hr
    have h2 := htbLt' r hr
    calc flat r < blInv r * ntime + ntime := by simp only [hflatdef]; omega
      _ = (blInv r + 1) * ntime := by ring
      _ ≤ nbl * ntime := Nat.mul_le_mul_right _ h1
  -- valid bins have time below the sentinel
  have hvalidLt : ∀ bl b, b < (bls bl).tbin → (bls bl).timeLookup b < sentinel := by
    intro bl b hb
    rw [(hbl bl).time_ok b hb]
    apply acc_le _ ((hbl bl).pos b hb)
    intro t ht hlk
    have hd := ((hbl bl).dom t).1 (by rw [hlk]; simp)
    obtain ⟨r, hr⟩ := Option.ne_none_iff_exists'.1 hd.2
    simp only [colAt, hr, Option.elim]
    exact hsent r ((hrlspec _ _ _).1 hr).1
  have hvalid : ∀ k < nbl * ntime, (flatTime k < sentinel ↔ k % ntime < (bls (k / ntime)).tbin) := by
    intro k hk
    have hnt : 0 < ntime := by
      rcases Nat.eq_zero_or_pos ntime with h0 | h0
      · subst h0; simp at hk
      · exact h0
    constructor
    · intro h
      by_contra hc
      have := (hbl (k / ntime)).pad (k % ntime) (by omega) (Nat.mod_lt _ hnt)
      simp only [hflat] at h
      rw [this] at h; exact lt_irrefl _ h
    · intro h; exact hvalidLt _ _ h
  have hcount : order.countP (fun k => decide (flatTime k < sentinel)) = outRows := by
    rw [hperm.countP_eq]
    have e1 : (List.range (nbl * ntime)).countP (fun k => decide (flatTime k < sentinel)) =
        (List.range (nbl * ntime)).countP
          (fun k => (fun bl b => decide (b < (bls bl).tbin)) (k / ntime) (k % ntime)) := by
      apply List.countP_congr
      intro k hk
      simp only [decide_eq_true_eq]
      exact hvalid k (List.mem_range.1 hk)
    refine e1.trans ((countP_flat nbl ntime (fun bl b => decide (b < (bls bl).tbin))).trans ?_)
    apply forRange_add_congr
    intro bl _
    exact countP_range_lt ntime _ (hbl bl).room
  -- position of a row's flat index
  have hpos : ∀ r < n, ∃ i : Nat, order[i]? = some (flat r) := by
    intro r hr
    have : flat r ∈ order := mem_argsort.2 (hflatLt r hr)
    obtain ⟨i, hi, he⟩ := List.getElem_of_mem this
    exact ⟨i, by rw [List.getElem?_eq_getElem hi, he]⟩
  choose! pos hpos using hpos
  have hinvp : ∀ r < n, invPerm order (blInv r * ntime + tb r) = pos r :=
    fun r hr => invPerm_getElem hnd (hpos r hr)
  have hposLt : ∀ r < n, pos r < outRows := by
    intro r hr
    rw [← hcount]
    refine (sorted_prefix flatTime sentinel order hsortedL (pos r) (flat r) (hpos r hr)).1 ?_
    rw [hvalid _ (hflatLt r hr), hdiv r hr, hmod r hr]
    exact htbLt r hr
  have hposEq : ∀ r < n, ∀ o : Nat, pos r = o ↔ order[o]? = some (flat r) := by
    intro r hr o
    constructor
    · rintro rfl; exact hpos r hr
    · intro h
      rw [← invPerm_getElem hnd (hpos r hr), invPerm_getElem hnd h]
  have hposFlat : ∀ r < n, ∀ q < n, pos r = pos q ↔ flat r = flat q := by
    intro r hr q hq
    rw [hposEq r hr, hpos q hq]
    constructor
    · intro h; exact (Option.some.inj h).symm
    · intro h; rw [h]
  have hflatEq : ∀ r < n, ∀ q < n, flat r = flat q ↔ blInv r = blInv q ∧ tb r = tb q := by
    intro r hr q hq
    constructor
    · intro h
      refine ⟨?_, ?_⟩
      · rw [← hdiv r hr, ← hdiv q hq, h]
      · rw [← hmod r hr, ← hmod q hq, h]
    · rintro ⟨h1, h2⟩; simp only [hflatdef]; rw [h1, h2]
  have hflagged : ∀ r < n, (bls (blInv r)).binFlagged (tb r) = true →
      ∀ q < n, pos q = pos r → isFlagged flagRow q = true := by
    intro r hr hf q hq hqr
    obtain ⟨e1, e2⟩ := (hflatEq q hq r hr).1 ((hposFlat q hq r hr).1 hqr)
    rw [(hbl _).flag_ok _ (htbLt r hr), decide_eq_true_eq] at hf
    by_contra hc
    have hlt : binF (rl (blInv r)) (isFlagged flagRow) (bls (blInv r)).binLookup ntime (tb r) <
        binN (bls (blInv r)).binLookup ntime (tb r) := by
      unfold binF binN acc
      apply Finset.sum_lt_sum
      · intro t _
        split
        · unfold colAt; cases rl (blInv r) t with
          | none => simp
          | some r' => simp only [Option.elim]; split <;> simp
        · simp
      · refine ⟨timeInv q, Finset.mem_range.2 (htLt q hq), ?_⟩
        have h1 := htb q hq
        rw [e1, e2] at h1
        have h2 := (hrlspec (blInv q) (timeInv q) q).2 ⟨hq, rfl, rfl⟩
        rw [e1] at h2
        rw [if_pos h1, if_pos h1]
        simp only [colAt, h2, Option.elim]
        simp [hc]
    omega
  have hunflagged : ∀ r < n, (bls (blInv r)).binFlagged (tb r) = false →
      ∃ q < n, pos q = pos r ∧ isFlagged flagRow q = false := by
    intro r hr hf
    rw [(hbl _).flag_ok _ (htbLt r hr), decide_eq_false_iff_not] at hf
    by_contra hc
    push Not at hc
    apply hf
    unfold binN binF acc
    apply Finset.sum_congr rfl
    intro t ht
    split
    · rename_i hlk
      obtain ⟨q, hq⟩ := Option.ne_none_iff_exists'.1 (((hbl _).dom t).1 (by rw [hlk]; simp)).2
      obtain ⟨hqn, hqb, hqt⟩ := (hrlspec _ _ _).1 hq
      have htq : tb q = tb r := by
        have := htb q hqn
        rw [hqb, hqt, hlk] at this
        exact (Option.some.inj this).symm
      have := hc q hqn ((hposFlat q hqn r hr).2 ((hflatEq q hqn r hr).2 ⟨hqb, htq⟩))
      simp only [ne_eq, Bool.not_eq_false] at this
      simp [colAt, hq, this]
    · rfl
  -- the final loop
  have hfinal := forRangeM_ok_inv (n := n) (ε := PyErr)
    (init := (⟨fun _ => 0, flagRow.map fun _ => fun _ => 0⟩ : FinalState))
    (f := finalStep bls blInv timeInv ntime outRows (invPerm order) flagRow)
    (P := fun i s => (∀ r < i, s.rowMap r = pos r) ∧ (flagRow = none → s.outFlagRow = none) ∧
      (∀ f, flagRow = some f → ∃ g, s.outFlagRow = some g ∧
        ∀ r < i, g (pos r) = if (bls (blInv r)).binFlagged (tb r) then 1 else 0))
    ⟨by simp, by intro h; simp [h], by intro f hf; exact ⟨fun _ => 0, by simp [hf], by simp⟩⟩
    (by
      rintro i s hi ⟨h1, h2, h3⟩
      simp only [finalStep, htb i hi, hinvp i hi]
      rw [if_neg (by have := hposLt i hi; omega)]
      cases hfr : flagRow with
      | none =>
        simp only [setFlagRow]
        refine ⟨_, rfl, ?_, ?_, ?_⟩
        · intro r hr
          simp only
          by_cases hri : r = i
          · subst hri; simp
          · rw [update_of_ne hri]; exact h1 r (by omega)
        · intro _; exact h2 hfr
        · intro f hf; simp at hf
      | some f =>
        obtain ⟨g, hg1, hg2⟩ := h3 f hfr
        have hguard : ¬ (f i = 0 ∧ (bls (blInv i)).binFlagged (tb i) = true) := by
          rintro ⟨hz, hb⟩
          have := hflagged i hi hb i hi rfl
          simp [isFlagged, hfr, hz] at this
        simp only [setFlagRow]
        rw [if_neg hguard]
        refine ⟨_, rfl, ?_, ?_, ?_⟩
        · intro r hr
          simp only
          by_cases hri : r = i
          · subst hri; simp
          · rw [update_of_ne hri]; exact h1 r (by omega)
        · intro hf; simp at hf
        · intro f' _
          refine ⟨update g (pos i) (if (bls (blInv i)).binFlagged (tb i) then 1 else 0),
            by simp [hg1], ?_⟩
          intro r hr
          by_cases hri : pos r = pos i
          · have hrn : r < n := by omega
            obtain ⟨e1, e2⟩ := (hflatEq r hrn i hi).1 ((hposFlat r hrn i hi).1 hri)
            rw [hri, update_self, e1, e2]
          · rw [update_of_ne hri]
            exact hg2 r (by
              by_contra hc
              have : r = i := by omega
              subst this; exact hri rfl))
  obtain ⟨fin, hfin, hmap, hfl0, hfl1⟩ := hfinal
  refine ⟨{ map := fin.rowMap, outRows := outRows, time := fun i => flatTime (order.getD i 0),
            interval := fun i => flatInt (order.getD i 0), flagRow := fin.outFlagRow }, ?_, ?_⟩
  · rw [hfin]
  · -- every valid position is the position of a row
    have honto : ∀ o < outRows, ∃ r < n, pos r = o := by
      intro o ho
      have hoL : o < order.length := by
        have := List.countP_le_length (p := fun k => decide (flatTime k < sentinel)) (l := order)
        omega
      have hget : order[o]? = some order[o] := List.getElem?_eq_getElem hoL
      have hk : order[o] < nbl * ntime := mem_argsort.1 (List.getElem_mem hoL)
      have hv := (sorted_prefix flatTime sentinel order hsortedL o _ hget).2 (by rw [hcount]; exact ho)
      have hb := (hvalid _ hk).1 hv
      have hp := (hbl (order[o] / ntime)).pos _ hb
      have : ∃ t ∈ Finset.range ntime,
          (if (bls (order[o] / ntime)).binLookup t = some (order[o] % ntime) then 1 else 0 : Nat) ≠ 0 := by
        by_contra hc
        push Not at hc
        have : binN (bls (order[o] / ntime)).binLookup ntime (order[o] % ntime) = 0 :=
          Finset.sum_eq_zero hc
        omega
      obtain ⟨t, ht, hne⟩ := this
      have hlk : (bls (order[o] / ntime)).binLookup t = some (order[o] % ntime) := by
        by_contra hc; simp [hc] at hne
      obtain ⟨r, hr⟩ := Option.ne_none_iff_exists'.1 (((hbl _).dom t).1 (by rw [hlk]; simp)).2
      obtain ⟨hrn, hrb, hrt⟩ := (hrlspec _ _ _).1 hr
      have hval := htb r hrn
      rw [hrb, hrt, hlk] at hval
      have hval := Option.some.inj hval
      refine ⟨r, hrn, ?_⟩
      rw [hposEq r hrn, hget]
      congr 1
      simp only [hflatdef]
      rw [hrb, ← hval, Nat.mul_comm, Nat.div_add_mod]
    -- sums over fibres
    have hsum : ∀ {M : Type} [AddCommMonoid M] (g : Nat → M) (r0 : Nat), r0 < n →
        acc (bls (blInv r0)).binLookup ntime (colAt (rl (blInv r0)) g) (tb r0) =
        ∑ r ∈ (Finset.range n).filter (fun r => fin.rowMap r = pos r0), g r := by
      intro M _ g r0 hr0
      unfold acc
      rw [← Finset.sum_filter]
      symm
      apply Finset.sum_bij (fun r _ => timeInv r)
      · intro r hr
        rw [Finset.mem_filter, Finset.mem_range] at hr
        obtain ⟨hrn, hrm⟩ := hr
        rw [hmap r hrn] at hrm
        obtain ⟨e1, e2⟩ := (hflatEq r hrn r0 hr0).1 ((hposFlat r hrn r0 hr0).1 hrm)
        rw [Finset.mem_filter, Finset.mem_range]
        exact ⟨htLt r hrn, by rw [← e1, ← e2]; exact htb r hrn⟩
      · intro r hr q hq e
        rw [Finset.mem_filter, Finset.mem_range] at hr hq
        have h1 := hr.2
        have h2 := hq.2
        rw [hmap r hr.1] at h1
        rw [hmap q hq.1] at h2
        obtain ⟨e1, -⟩ := (hflatEq r hr.1 q hq.1).1 ((hposFlat r hr.1 q hq.1).1 (h1.trans h2.symm))
        exact hinj r hr.1 q hq.1 e1 e
      · intro t ht
        rw [Finset.mem_filter, Finset.mem_range] at ht
        obtain ⟨r, hr⟩ := Option.ne_none_iff_exists'.1 (((hbl _).dom t).1 (by rw [ht.2]; simp)).2
        obtain ⟨hrn, hrb, hrt⟩ := (hrlspec _ _ _).1 hr
        have hval := htb r hrn
        rw [hrb, hrt, ht.2] at hval
        have hval := Option.some.inj hval
        refine ⟨r, ?_, hrt⟩
        rw [Finset.mem_filter, Finset.mem_range]
        refine ⟨hrn, ?_⟩
        rw [hmap r hrn, hposFlat r hrn r0 hr0, hflatEq r hrn r0 hr0]
        exact ⟨hrb, hval.symm⟩
      · intro r hr
        rw [Finset.mem_filter, Finset.mem_range] at hr
        obtain ⟨hrn, hrm⟩ := hr
        rw [hmap r hrn] at hrm
        obtain ⟨e1, -⟩ := (hflatEq r hrn r0 hr0).1 ((hposFlat r hrn r0 hr0).1 hrm)
        have := (hrlspec (blInv r) (timeInv r) r).2 ⟨hrn, rfl, rfl⟩
        rw [e1] at this
        simp [colAt, this]
    have hgetD : ∀ r < n, order.getD (pos r) 0 = flat r := by
      intro r hr
      rw [List.getD_eq_getElem?_getD, hpos r hr]; rfl
    have hcard : ∀ r0 < n, binN (bls (blInv r0)).binLookup ntime (tb r0) =
        ((Finset.range n).filter (fun r => fin.rowMap r = pos r0)).card := by
      intro r0 hr0
      rw [Finset.card_eq_sum_ones, ← hsum (fun _ => 1) r0 hr0]
      unfold binN acc
      apply Finset.sum_congr rfl
      intro t _
      split
      · rename_i hlk
        obtain ⟨r, hr⟩ := Option.ne_none_iff_exists'.1 (((hbl _).dom t).1 (by rw [hlk]; simp)).2
        simp [colAt, hr]
      · rfl
    constructor
    · intro r hr; simp only; rw [hmap r hr]; exact hposLt r hr
    · intro o ho
      obtain ⟨r, hr, he⟩ := honto o ho
      exact ⟨r, hr, by simp only; rw [hmap r hr, he]⟩
    · intro r hr q hq he
      simp only at he
      rw [hmap r hr, hmap q hq, hposFlat r hr q hq, hflatEq r hr q hq] at he
      exact (hblEq r hr q hq).1 he.1
    · intro o ho
      obtain ⟨r, hr, rfl⟩ := honto o ho
      simp only
      rw [hgetD r hr, ← hsum time r hr, ← hcard r hr]
      simp only [hflat]
      rw [hdiv r hr, hmod r hr]
      exact (hbl _).time_ok _ (htbLt r hr)
    · intro o ho
      obtain ⟨r, hr, rfl⟩ := honto o ho
      simp only
      rw [hgetD r hr, ← hsum interval r hr]
      simp only [hflatI]
      rw [hdiv r hr, hmod r hr]
      exact (hbl _).int_ok _
    · intro o o' hoo ho'
      rcases Nat.lt_or_ge o o' with hlt | hge
      · simp only
        have hle := List.countP_le_length (p := fun k => decide (flatTime k < sentinel)) (l := order)
        have h1 : o < order.length := by simp only at ho'; omega
        have h2 : o' < order.length := by simp only at ho'; omega
        have := List.pairwise_iff_getElem.1 hsortedL o o' h1 h2 hlt
        rw [List.getD_eq_getElem?_getD, List.getD_eq_getElem?_getD,
          List.getElem?_eq_getElem h1, List.getElem?_eq_getElem h2]
        exact this
      · have : o = o' := by omega
        rw [this]
    · exact hfl0
    · intro f hf
      obtain ⟨g, hg1, hg2⟩ := hfl1 f hf
      refine ⟨g, hg1, ?_⟩
      intro o ho
      obtain ⟨r, hr, rfl⟩ := honto o ho
      rw [hg2 r hr]
      refine ⟨?_, ?_⟩
      · intro hall
        rw [if_pos]
        by_contra hc
        obtain ⟨q, hq, hqr, hqf⟩ := hunflagged r hr (by simpa using hc)
        have := hall q hq (by simp only; rw [hmap q hq, hqr])
        simp [isFlagged, hf, this] at hqf
      · rintro ⟨q, hq, hqr, hqf⟩
        simp only at hqr
        rw [hmap q hq] at hqr
        rw [if_neg]
        intro hc
        have := hflagged r hr hc q hq hqr
        simp [isFlagged, hf, hqf] at this
    · refine ⟨blInv, timeInv, ntime, rl, hblEq, htMono, htLt, htOnto, hrlspec, ?_⟩
      intro r hr q hq
      simp only
      rw [hmap r hr, hmap q hq, hposFlat r hr q hq, hflatEq r hr q hq]
      have e1 := htb r hr
      have e2 := htb q hq
      simp only [hbls] at e1 e2
      rw [e1, e2]
      simp
    · intro r hr q hq hlt
      simp only at hlt ⊢
      rw [hmap r hr, hmap q hq] at hlt ⊢
      rw [hgetD r hr, hgetD q hq]
      have hpw : order.Pairwise fun i j => flatTime i < flatTime j ∨ (flatTime i = flatTime j ∧ i < j) :=
        argsort_pairwise (nbl * ntime) flatTime
      obtain ⟨l1, g1⟩ := List.getElem?_eq_some_iff.1 (hpos r hr)
      obtain ⟨l2, g2⟩ := List.getElem?_eq_some_iff.1 (hpos q hq)
      have := List.pairwise_iff_getElem.1 hpw (pos r) (pos q) l1 l2 hlt
      rw [g1, g2] at this
      rcases this with h | ⟨h1, h2⟩
      · exact Or.inl h
      · refine Or.inr ⟨h1, ?_⟩
        rw [← hblMono r hr q hq]
        rcases Nat.lt_trichotomy (blInv r) (blInv q) with h | h | h
        · exact h
        · exfalso
          have htlt : tb r < tb q := by
            simp only [hflatdef, h] at h2
            omega
          have hm := mean_lt (lk := (bls (blInv r)).binLookup) (T := ntime) (b := tb r) (b' := tb q)
            (g := colAt (rl (blInv r)) time) (by
              intro t ht t' ht' e e'
              have hne : t < t' := by
                by_contra hc
                have := blLoop_mono (Nat.le_of_not_lt hc) e' e
                omega
              obtain ⟨a, ha⟩ := Option.ne_none_iff_exists'.1 (((hbl _).dom t).1 (by rw [e]; simp)).2
              obtain ⟨b, hb⟩ := Option.ne_none_iff_exists'.1 (((hbl _).dom t').1 (by rw [e']; simp)).2
              obtain ⟨han, _, hat⟩ := (hrlspec _ _ _).1 ha
              obtain ⟨hbn, _, hbt⟩ := (hrlspec _ _ _).1 hb
              simp only [colAt, ha, hb, Option.elim]
              exact (htMono a han b hbn).1 (by omega))
            ((hbl _).pos _ (htbLt r hr)) ((hbl _).pos _ (by rw [h]; exact htbLt q hq))
          have e1 := (hbl (blInv r)).time_ok (tb r) (htbLt r hr)
          have e2 := (hbl (blInv r)).time_ok (tb q) (by rw [h]; exact htbLt q hq)
          rw [← e1, ← e2] at hm
          simp only [hflat, hdiv r hr, hmod r hr, hdiv q hq, hmod q hq] at h1
          rw [← h] at h1
          exact absurd h1 hm.ne
        · exfalso
          have b1 := htbLt' q hq
          have : blInv q * ntime + ntime ≤ blInv r * ntime := by
            have := Nat.mul_le_mul_right ntime h
            rw [Nat.succ_mul] at this
            exact this
          simp only [hflatdef] at h2
          omega

theorem rowMapper_dup {n : Nat} {time interval : Nat → ℚ} {ant1 ant2 : Nat → Int}
    {flagRow : Option (Nat → Nat)} {secs sentinel : ℚ}
    (hdup : ¬ NoDup n time ant1 ant2) :
    rowMapper sentinel n time interval ant1 ant2 flagRow secs = .error .valueError := by
  unfold rowMapper
  simp only [bind, Except.bind]
  have hub := uniqueInternal_ok n (fun r => pack32 (ant1 r) (ant2 r))
  have hut := uniqueInternal_ok n time
  cases h : rowLookup n (uniqueBaselines n ant1 ant2).inv (uniqueTime n time).inv with
  | error e => rw [rowLookup_error h]
  | ok lk =>
    exfalso
    apply hdup
    intro r hr q hq h1 h2 h3
    refine rowLookup_ok_inj h r hr q hq ?_ ?_
    · exact (hub.inv_eq_iff hr hq).2 (by rw [h2, h3])
    · exact (hut.inv_eq_iff hr hq).2 h1

end Verif.Averaging
