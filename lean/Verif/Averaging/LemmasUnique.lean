/-
Facts about stable argsort and the `unique` model.
-/
import Verif.Averaging.Model
import Mathlib.Data.List.Nodup
import Mathlib.Data.List.Sort
import Mathlib.Tactic.Linarith

set_option autoImplicit false

namespace Verif.Averaging

open Function List

theorem not_pair_sublist_swap {β : Type*} {l : List β} {a b : β} (hl : l.Nodup)
    (h1 : [a, b] <+ l) (h2 : [b, a] <+ l) : False := by
  induction l with
  | nil => simp at h1
  | cons x l ih =>
    rw [List.nodup_cons] at hl
    rcases List.sublist_cons_iff.1 h1 with h1 | ⟨r, hr, h1'⟩
    · rcases List.sublist_cons_iff.1 h2 with h2 | ⟨r, hr, h2'⟩
      · exact ih hl.2 h1 h2
      · simp at hr
        exact hl.1 (hr.1 ▸ h1.subset (by simp))
    · simp at hr
      rcases List.sublist_cons_iff.1 h2 with h2 | ⟨r', hr', h2'⟩
      · exact hl.1 (hr.1 ▸ h2.subset (by simp))
      · simp at hr'
        have hab : a = b := by rw [hr.1, hr'.1]
        subst hab
        have : a ∈ l := h1'.subset (by simp [← hr.2])
        exact hl.1 (hr.1 ▸ this)

section argsort
variable {α : Type*} [LinearOrder α]

theorem argsort_perm (n : Nat) (key : Nat → α) : argsort n key ~ List.range n :=
  List.mergeSort_perm _ _

theorem argsort_length (n : Nat) (key : Nat → α) : (argsort n key).length = n := by
  simpa using (argsort_perm n key).length_eq

theorem argsort_nodup (n : Nat) (key : Nat → α) : (argsort n key).Nodup :=
  (argsort_perm n key).nodup_iff.2 List.nodup_range

theorem mem_argsort {n : Nat} {key : Nat → α} {i : Nat} : i ∈ argsort n key ↔ i < n := by
  rw [(argsort_perm n key).mem_iff, List.mem_range]

theorem argsort_pairwise_le (n : Nat) (key : Nat → α) :
    (argsort n key).Pairwise (fun i j => key i ≤ key j) := by
  have := List.pairwise_mergeSort (le := fun i j => decide (key i ≤ key j))
    (by intro a b c; simp only [decide_eq_true_eq]; exact le_trans)
    (by intro a b; simp only [Bool.or_eq_true, decide_eq_true_eq]; exact le_total _ _)
    (List.range n)
  simpa [argsort] using this

/-- Stability: the sort is lexicographic in (key, index). -/
theorem argsort_pairwise (n : Nat) (key : Nat → α) :
    (argsort n key).Pairwise (fun i j => key i < key j ∨ (key i = key j ∧ i < j)) := by
  rw [List.pairwise_iff_forall_sublist]
  intro a b hab
  have hle : key a ≤ key b :=
    List.pairwise_iff_forall_sublist.1 (argsort_pairwise_le n key) hab
  have hnd := argsort_nodup n key
  have hne : a ≠ b := by
    have := hnd.sublist hab
    simpa using this
  rcases lt_or_eq_of_le hle with h | h
  · exact Or.inl h
  · right
    refine ⟨h, ?_⟩
    by_contra hlt
    have hba : b < a := by omega
    have ha : a < n := mem_argsort.1 (hab.subset (by simp))
    have hb : b < n := mem_argsort.1 (hab.subset (by simp))
    have hsub : [b, a] <+ List.range n := by
      have h1 : List.range (a + 1) <+ List.range n := List.range_sublist.2 ha
      rw [List.range_succ] at h1
      refine List.Sublist.trans ?_ h1
      have h2 : [b] <+ List.range a := List.singleton_sublist.2 (List.mem_range.2 hba)
      exact h2.append (List.Sublist.refl [a])
    have := List.pair_sublist_mergeSort (le := fun i j => decide (key i ≤ key j))
      (by intro a b c; simp only [decide_eq_true_eq]; exact le_trans)
      (by intro a b; simp only [Bool.or_eq_true, decide_eq_true_eq]; exact le_total _ _)
      (by simp [h]) hsub
    exact not_pair_sublist_swap hnd hab this

end argsort

section unique
variable {α : Type*} [LinearOrder α]

/-- Invariant of the `_unique_internal` loop after the prefix `done` of the sorted indices. -/
structure UInv (data : Nat → α) (done : List Nat) (s : UState α) : Prop where
  i_eq : s.i = done.length
  last : s.uniq.getLast? = some s.prev
  le_prev : ∀ p ∈ done, data p ≤ s.prev
  sorted : s.uniq.Pairwise (· < ·)
  len : s.uniq.length = s.cumsum
  idx_len : s.idx.length = s.uniq.length
  cuts_len : s.cuts.length = s.uniq.length
  inv_ok : ∀ p ∈ done, s.uniq[s.inv p]? = some (data p)
  idx_ok : ∀ (k : Nat) p, s.idx[k]? = some p → p ∈ done ∧ s.uniq[k]? = some (data p) ∧
    ∀ q ∈ done, data q = data p → p ≤ q
  cuts_ok : ∀ (k : Nat) u, s.uniq[k]? = some u → s.cuts[k]? = some (done.countP (fun q => data q < u))

theorem uniqueStep_inv {data : Nat → α} {done : List Nat} {s : UState α} {p : Nat}
    (h : UInv data done s)
    (hp : ∀ q ∈ done, data q < data p ∨ (data q = data p ∧ q < p)) (hnd : p ∉ done) :
    UInv data (done ++ [p]) (uniqueStep data s p) := by
  have hne : s.uniq ≠ [] := by
    intro h0; have := h.last; simp [h0] at this
  have hpos : 0 < s.uniq.length := List.length_pos_of_ne_nil hne
  have hlast : s.uniq[s.uniq.length - 1]? = some s.prev := by
    rw [← List.getLast?_eq_getElem?]; exact h.last
  have hidx : ∃ q ∈ done, data q = s.prev := by
    have hk : s.uniq.length - 1 < s.idx.length := by rw [h.idx_len]; omega
    obtain ⟨h1, h2, -⟩ := h.idx_ok (s.uniq.length - 1) s.idx[s.uniq.length - 1]
      (List.getElem?_eq_getElem hk)
    refine ⟨_, h1, ?_⟩
    rw [hlast] at h2
    exact (Option.some.inj h2).symm
  obtain ⟨q0, hq0, hq0p⟩ := hidx
  have hprev : s.prev ≤ data p := by
    rcases hp q0 hq0 with h1 | h1
    · rw [← hq0p]; exact h1.le
    · rw [← hq0p]; exact h1.1.le
  have hmono : ∀ (k : Nat) u, s.uniq[k]? = some u → u ≤ s.prev := by
    intro k u hu
    have hk : k < s.uniq.length := by
      by_contra hc; simp [List.getElem?_eq_none (Nat.le_of_not_lt hc)] at hu
    have hs := List.pairwise_iff_getElem.1 h.sorted
    by_cases hkl : k = s.uniq.length - 1
    · subst hkl; rw [hlast] at hu; exact (Option.some.inj hu).ge
    · have hl : s.uniq.length - 1 < s.uniq.length := by omega
      have := hs k (s.uniq.length - 1) hk hl (by omega)
      rw [List.getElem?_eq_getElem hk] at hu
      rw [List.getElem?_eq_getElem hl] at hlast
      rw [← Option.some.inj hu, ← Option.some.inj hlast]
      exact this.le
  by_cases hd : data p ≠ s.prev
  · have hlt : s.prev < data p := lt_of_le_of_ne hprev (Ne.symm hd)
    have hall : ∀ q ∈ done, data q < data p := fun q hq => lt_of_le_of_lt (h.le_prev q hq) hlt
    simp only [uniqueStep, if_pos hd]
    constructor
    · simp [h.i_eq]
    · simp
    · intro q hq
      rcases List.mem_append.1 hq with hq | hq
      · exact (hall q hq).le
      · simp at hq; simp [hq]
    · simp only
      rw [List.pairwise_append]
      refine ⟨h.sorted, by simp, ?_⟩
      intro a ha b hb
      simp at hb; subst hb
      obtain ⟨k, hk, rfl⟩ := List.getElem_of_mem ha
      exact lt_of_le_of_lt (hmono k _ (List.getElem?_eq_getElem hk)) hlt
    · simp [h.len]
    · simp [h.idx_len]
    · simp [h.cuts_len]
    · intro q hq
      rcases List.mem_append.1 hq with hq | hq
      · have hqp : q ≠ p := fun e => hnd (e ▸ hq)
        simp only [update_of_ne hqp]
        have := h.inv_ok q hq
        have hk : s.inv q < s.uniq.length := by
          by_contra hc; simp [List.getElem?_eq_none (Nat.le_of_not_lt hc)] at this
        rw [List.getElem?_append_left hk]; exact this
      · simp at hq; subst hq
        simp [← h.len]
    · intro k q hk
      simp only at hk ⊢
      by_cases hkl : k < s.idx.length
      · rw [List.getElem?_append_left hkl] at hk
        obtain ⟨h1, h2, h3⟩ := h.idx_ok k q hk
        refine ⟨by simp [h1], ?_, ?_⟩
        · rw [List.getElem?_append_left (by rw [← h.idx_len]; exact hkl)]; exact h2
        · intro r hr hre
          rcases List.mem_append.1 hr with hr | hr
          · exact h3 r hr hre
          · simp at hr; subst hr
            exact absurd hre (ne_of_gt (hall q h1))
      · have hk' := hk
        rw [List.getElem?_append_right (by omega)] at hk
        have hkk : k = s.idx.length := by
          by_contra hc
          rw [List.getElem?_eq_none (by simp; omega)] at hk
          simp at hk
        subst hkk
        simp at hk; subst hk
        refine ⟨by simp, ?_, ?_⟩
        · rw [h.idx_len]; simp
        · intro r hr hre
          rcases List.mem_append.1 hr with hr | hr
          · exact absurd hre (ne_of_lt (hall r hr))
          · simp at hr; omega
    · intro k u hu
      simp only at hu ⊢
      rw [List.countP_append]
      by_cases hkl : k < s.uniq.length
      · rw [List.getElem?_append_left hkl] at hu
        rw [List.getElem?_append_left (by rw [h.cuts_len]; exact hkl)]
        have hle := hmono k u hu
        have : ¬ data p < u := not_lt.2 (hle.trans hprev)
        simp [h.cuts_ok k u hu, this]
      · have hkk : k = s.uniq.length := by
          by_contra hc
          rw [List.getElem?_eq_none (by simp; omega)] at hu
          simp at hu
        subst hkk
        simp at hu; subst hu
        have hc : s.cuts.length = s.uniq.length := h.cuts_len
        rw [← hc]
        simp only [List.getElem?_concat_length, List.countP_singleton, lt_irrefl, decide_false]
        congr 1
        rw [h.i_eq]
        symm
        simp only [Bool.false_eq_true, if_false, Nat.add_zero]
        rw [List.countP_eq_length]
        intro q hq; simpa using hall q hq
  · have hd' : data p = s.prev := not_not.1 hd
    simp only [uniqueStep, if_neg hd]
    constructor
    · simp [h.i_eq]
    · simp only; rw [hd']; exact h.last
    · intro q hq
      simp only
      rcases List.mem_append.1 hq with hq | hq
      · rw [hd']; exact h.le_prev q hq
      · simp at hq; simp [hq]
    · exact h.sorted
    · exact h.len
    · exact h.idx_len
    · exact h.cuts_len
    · intro q hq
      rcases List.mem_append.1 hq with hq | hq
      · have hqp : q ≠ p := fun e => hnd (e ▸ hq)
        simp only [update_of_ne hqp]
        exact h.inv_ok q hq
      · simp at hq; subst hq
        simp only [update_self]
        rw [← h.len, hlast, hd']
    · intro k q hk
      obtain ⟨h1, h2, h3⟩ := h.idx_ok k q hk
      refine ⟨by simp [h1], h2, ?_⟩
      intro r hr hre
      rcases List.mem_append.1 hr with hr | hr
      · exact h3 r hr hre
      · simp at hr; subst hr
        rcases hp q h1 with h4 | h4
        · exact absurd hre (ne_of_gt h4)
        · exact h4.2.le
    · intro k u hu
      simp only at hu ⊢
      rw [List.countP_append, h.cuts_ok k u hu]
      have hle := hmono k u hu
      have : ¬ data p < u := not_lt.2 (hle.trans hprev)
      simp [this]

theorem uniqueFold_inv {data : Nat → α} (ps done : List Nat) (s : UState α)
    (h : UInv data done s)
    (hsort : (done ++ ps).Pairwise (fun i j => data i < data j ∨ (data i = data j ∧ i < j)))
    (hnd : (done ++ ps).Nodup) :
    UInv data (done ++ ps) (ps.foldl (uniqueStep data) s) := by
  induction ps generalizing done s with
  | nil => simpa using h
  | cons p ps ih =>
    rw [List.foldl_cons]
    have e : done ++ p :: ps = (done ++ [p]) ++ ps := by simp
    rw [e] at hsort hnd ⊢
    refine ih _ _ ?_ hsort hnd
    have h1 := (List.pairwise_append.1 hsort).1
    have h2 := (List.nodup_append.1 hnd).1
    refine uniqueStep_inv h ?_ ?_
    · intro q hq
      exact (List.pairwise_append.1 h1).2.2 q hq p (by simp)
    · intro hp
      exact (List.nodup_append.1 h2).2.2 p hp p (by simp) rfl

theorem diff_getElem? (l : List Nat) (k : Nat) (a b : Nat)
    (ha : l[k]? = some a) (hb : l[k + 1]? = some b) : (diff l)[k]? = some (b - a) := by
  induction l generalizing k with
  | nil => simp at ha
  | cons x l ih =>
    cases l with
    | nil => simp at hb
    | cons y l =>
      cases k with
      | zero => simp at ha hb; simp [diff, ha, hb]
      | succ k => simp only [diff, List.getElem?_cons_succ] at *; exact ih k ha hb

theorem diff_length (l : List Nat) : (diff l).length = l.length - 1 := by
  induction l with
  | nil => rfl
  | cons x l ih =>
    cases l with
    | nil => rfl
    | cons y l => simp only [diff, List.length_cons] at *; omega

/-- What `_unique_internal` guarantees. -/
structure UniqueOK (n : Nat) (data : Nat → α) (u : UniqueOut α) : Prop where
  sorted : u.uniq.Pairwise (· < ·)
  inv_ok : ∀ r < n, u.uniq[u.inv r]? = some (data r)
  idx_len : u.idx.length = u.uniq.length
  counts_len : u.counts.length = u.uniq.length
  idx_ok : ∀ (k : Nat) p, u.idx[k]? = some p → p < n ∧ u.uniq[k]? = some (data p) ∧
    ∀ q < n, data q = data p → p ≤ q
  counts_ok : ∀ (k : Nat) v, u.uniq[k]? = some v →
    u.counts[k]? = some ((List.range n).countP (fun q => data q = v))

theorem uniqueInternal_ok (n : Nat) (data : Nat → α) : UniqueOK n data (uniqueInternal n data) := by
  unfold uniqueInternal
  have hperm := argsort_perm n data
  have hsort := argsort_pairwise n data
  have hnd := argsort_nodup n data
  have hmem := fun i => @mem_argsort α _ n data i
  revert hperm hsort hnd hmem
  generalize argsort n data = L
  intro hperm hsort hnd hmem
  cases L with
  | nil =>
    have hn : n = 0 := by
      have := hperm.length_eq
      simpa using this.symm
    subst hn
    constructor <;> simp
  | cons p ps =>
    have h0 : UInv data [p] 
        (UState.mk 1 (data p) 1 [data p] [p] (update (fun _ => 0) p 0) [0]) := by
      constructor
      · rfl
      · simp
      · simp
      · simp
      · simp
      · simp
      · simp
      · simp
      · intro k q hk
        cases k with
        | zero => simp at hk; subst hk; simp
        | succ k => simp at hk
      · intro k u hu
        cases k with
        | zero => simp at hu; subst hu; simp
        | succ k => simp at hu
    have h := uniqueFold_inv ps [p] _ h0 (by simpa using hsort) (by simpa using hnd)
    simp only [List.singleton_append] at h
    revert h
    simp only
    generalize ps.foldl (uniqueStep data) _ = s
    intro h
    have hlen : (p :: ps).length = n := by simpa using hperm.length_eq
    constructor
    · exact h.sorted
    · intro r hr
      exact h.inv_ok r ((hmem r).2 hr)
    · exact h.idx_len
    · simp only [diff_length, List.length_append, List.length_singleton, h.cuts_len]; omega
    · intro k q hk
      obtain ⟨h1, h2, h3⟩ := h.idx_ok k q hk
      exact ⟨(hmem q).1 h1, h2, fun r hr => h3 r ((hmem r).2 hr)⟩
    · intro k v hv
      have hk : k < s.uniq.length := by
        by_contra hc; simp [List.getElem?_eq_none (Nat.le_of_not_lt hc)] at hv
      have hc1 := h.cuts_ok k v hv
      have hcount : (List.range n).countP (fun q => data q = v) =
          (p :: ps).countP (fun q => data q = v) := (hperm.countP_eq _).symm
      have hsplit : (p :: ps).countP (fun q => data q ≤ v) =
          (p :: ps).countP (fun q => data q < v) + (p :: ps).countP (fun q => data q = v) := by
        have := List.countP_eq_countP_filter_add (p :: ps) (fun q => decide (data q ≤ v))
          (fun q => decide (data q < v))
        rw [this, List.countP_filter, List.countP_filter]
        congr 1 <;> apply List.countP_congr <;> intro q _ <;> simp
        · exact fun h => h.le
        · constructor
          · rintro ⟨a, b⟩; exact le_antisymm a b
          · rintro rfl; simp
      by_cases hk1 : k + 1 < s.uniq.length
      · have hv1 : s.uniq[k + 1]? = some s.uniq[k + 1] := List.getElem?_eq_getElem hk1
        have hc2 := h.cuts_ok (k + 1) _ hv1
        rw [diff_getElem? _ k _ _
          (by rw [List.getElem?_append_left (by rw [h.cuts_len]; exact hk)]; exact hc1)
          (by rw [List.getElem?_append_left (by rw [h.cuts_len]; exact hk1)]; exact hc2)]
        have : (p :: ps).countP (fun q => data q < s.uniq[k + 1]) =
            (p :: ps).countP (fun q => data q ≤ v) := by
          apply List.countP_congr
          intro q hq
          simp only [decide_eq_true_eq]
          have hs := List.pairwise_iff_getElem.1 h.sorted
          have hvk : s.uniq[k] = v := by
            rw [List.getElem?_eq_getElem hk] at hv; exact Option.some.inj hv
          have hvlt := hs k (k + 1) hk hk1 (by omega)
          rw [hvk] at hvlt
          constructor
          · intro hq2
            have hi := h.inv_ok q hq
            have hil : s.inv q < s.uniq.length := by
              by_contra hc; simp [List.getElem?_eq_none (Nat.le_of_not_lt hc)] at hi
            rw [List.getElem?_eq_getElem hil] at hi
            have hi := Option.some.inj hi
            by_contra hc
            have hc := not_le.1 hc
            rcases lt_trichotomy (s.inv q) (k + 1) with h1 | h1 | h1
            · rcases Nat.lt_or_ge (s.inv q) k with h2 | h2
              · have := hs _ _ hil hk h2
                rw [hi, hvk] at this; exact absurd this (not_lt.2 hc.le)
              · have : s.inv q = k := by omega
                have e : s.uniq[s.inv q] = s.uniq[k] := by simp [this]
                rw [hi, hvk] at e; exact absurd e (ne_of_gt hc)
            · have e : s.uniq[s.inv q] = s.uniq[k + 1] := by simp [h1]
              rw [hi] at e; exact absurd e (ne_of_lt hq2)
            · have := hs _ _ hk1 hil h1
              rw [hi] at this; exact absurd this (not_lt.2 hq2.le)
          · intro hq2; exact lt_of_le_of_lt hq2 hvlt
        rw [this, hsplit, hcount]; congr 1; omega
      · have hke : k + 1 = s.uniq.length := by omega
        rw [diff_getElem? _ k ((p :: ps).countP (fun q => data q < v)) n
          (by rw [List.getElem?_append_left (by rw [h.cuts_len]; exact hk)]; exact hc1)
          (by rw [hke, ← h.cuts_len]; simp)]
        have hall : (p :: ps).countP (fun q => data q ≤ v) = n := by
          rw [← hlen, List.countP_eq_length]
          intro q hq
          have h1 := h.le_prev q hq
          have h2 := h.last
          rw [List.getLast?_eq_getElem?, show s.uniq.length - 1 = k by omega, hv] at h2
          have h2 := Option.some.inj h2
          simpa [h2] using h1
        rw [hcount]; congr 1; omega

theorem UniqueOK.inv_lt {n : Nat} {data : Nat → α} {u : UniqueOut α} (h : UniqueOK n data u)
    {r : Nat} (hr : r < n) : u.inv r < u.uniq.length := by
  have := h.inv_ok r hr
  by_contra hc; simp [List.getElem?_eq_none (Nat.le_of_not_lt hc)] at this

theorem UniqueOK.inv_eq_iff {n : Nat} {data : Nat → α} {u : UniqueOut α} (h : UniqueOK n data u)
    {r q : Nat} (hr : r < n) (hq : q < n) : u.inv r = u.inv q ↔ data r = data q := by
  have h1 := h.inv_ok r hr
  have h2 := h.inv_ok q hq
  constructor
  · intro e; rw [e, h2] at h1; exact (Option.some.inj h1).symm
  · intro e
    have l1 := h.inv_lt hr
    have l2 := h.inv_lt hq
    rw [List.getElem?_eq_getElem l1] at h1
    rw [List.getElem?_eq_getElem l2] at h2
    have hs := List.pairwise_iff_getElem.1 h.sorted
    rcases lt_trichotomy (u.inv r) (u.inv q) with hlt | he | hlt
    · have := hs _ _ l1 l2 hlt
      rw [Option.some.inj h1, Option.some.inj h2, e] at this; exact absurd this (lt_irrefl _)
    · exact he
    · have := hs _ _ l2 l1 hlt
      rw [Option.some.inj h1, Option.some.inj h2, e] at this; exact absurd this (lt_irrefl _)

theorem UniqueOK.inv_onto {n : Nat} {data : Nat → α} {u : UniqueOut α} (h : UniqueOK n data u)
    {k : Nat} (hk : k < u.uniq.length) : ∃ r < n, u.inv r = k := by
  have hk' : k < u.idx.length := by rw [h.idx_len]; exact hk
  obtain ⟨hp, hu, _⟩ := h.idx_ok k u.idx[k] (List.getElem?_eq_getElem hk')
  refine ⟨_, hp, ?_⟩
  have h1 := h.inv_ok _ hp
  have l1 := h.inv_lt hp
  rw [List.getElem?_eq_getElem l1] at h1
  rw [List.getElem?_eq_getElem hk] at hu
  have hs := List.pairwise_iff_getElem.1 h.sorted
  rcases lt_trichotomy (u.inv u.idx[k]) k with hlt | he | hlt
  · have := hs _ _ l1 hk hlt
    rw [Option.some.inj h1, Option.some.inj hu] at this; exact absurd this (lt_irrefl _)
  · exact he
  · have := hs _ _ hk l1 hlt
    rw [Option.some.inj h1, Option.some.inj hu] at this; exact absurd this (lt_irrefl _)

theorem UniqueOK.inv_lt_iff {n : Nat} {data : Nat → α} {u : UniqueOut α} (h : UniqueOK n data u)
    {r q : Nat} (hr : r < n) (hq : q < n) : u.inv r < u.inv q ↔ data r < data q := by
  have h1 := h.inv_ok r hr
  have h2 := h.inv_ok q hq
  have l1 := h.inv_lt hr
  have l2 := h.inv_lt hq
  rw [List.getElem?_eq_getElem l1] at h1
  rw [List.getElem?_eq_getElem l2] at h2
  have hs := List.pairwise_iff_getElem.1 h.sorted
  rcases lt_trichotomy (u.inv r) (u.inv q) with hlt | he | hlt
  · have := hs _ _ l1 l2 hlt
    rw [Option.some.inj h1, Option.some.inj h2] at this; exact ⟨fun _ => this, fun _ => hlt⟩
  · have := (h.inv_eq_iff hr hq).1 he
    simp [he, this]
  · have := hs _ _ l2 l1 hlt
    rw [Option.some.inj h1, Option.some.inj h2] at this
    exact ⟨fun h => absurd h (by omega), fun h => absurd h (not_lt.2 this.le)⟩

end unique
end Verif.Averaging
