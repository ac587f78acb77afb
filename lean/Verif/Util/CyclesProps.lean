/-
C63: the cycles of register assignments perform the rotation. C91: the warp transpose transposes.
-/
import Verif.Util.Cycles
import Verif.Loops
import Mathlib.Data.List.Nodup
import Mathlib.Data.List.Rotate
import Mathlib.Data.List.Perm.Basic
import Mathlib.Tactic.Push
import Mathlib.Tactic.Ring
import Mathlib.Tactic.IntervalCases

set_option autoImplicit false

namespace Verif.Util.Cycles

open Verif.Util

variable {α : Type}

/-! ### The source of a register -/

theorem srcOf_lt {N : Nat} (case : Int) {n : Nat} (h : n < N) : srcOf N case n < N := by
  unfold srcOf
  have h1 := Int.emod_nonneg ((N : Int) - case + n) (b := (N : Int)) (by omega)
  have h2 := Int.emod_lt_of_pos ((N : Int) - case + n) (b := (N : Int)) (by omega)
  omega

theorem srcOf_spec {N : Nat} (case : Int) {n : Nat} (h : n < N) :
    (srcOf N case n : Int) = ((n : Int) - case) % (N : Int) := by
  unfold srcOf
  have h1 := Int.emod_nonneg ((N : Int) - case + n) (b := (N : Int)) (by omega)
  rw [Int.toNat_of_nonneg h1, show (N : Int) - case + n = (n - case) + N by ring, Int.add_emod_right]

theorem srcOf_inj {N : Nat} {case : Int} {m n : Nat} (hm : m < N) (hn : n < N) (h : srcOf N case m = srcOf N case n) : m = n := by
  have h' : (srcOf N case m : Int) = srcOf N case n := by rw [h]
  rw [srcOf_spec case hm, srcOf_spec case hn] at h'
  obtain ⟨q, hq⟩ := Int.dvd_of_emod_eq_zero (Int.emod_eq_emod_iff_emod_sub_eq_zero.mp h')
  have h1 : (N : Int) * q < N * 1 := by omega
  have h2 : (N : Int) * (-1) < N * q := by omega
  have hN : (0 : Int) < N := by omega
  have h3 := Int.lt_of_mul_lt_mul_left h1 hN.le
  have h4 := Int.lt_of_mul_lt_mul_left h2 hN.le
  have : q = 0 := by omega
  subst this
  omega

theorem srcOf_surj {N : Nat} (case : Int) {n : Nat} (h : n < N) : ∃ m < N, srcOf N case m = n := by
  have h1 := Int.emod_nonneg ((n : Int) + case) (b := (N : Int)) (by omega)
  have h2 := Int.emod_lt_of_pos ((n : Int) + case) (b := (N : Int)) (by omega)
  have hm : (((n : Int) + case) % N).toNat < N := by omega
  refine ⟨_, hm, ?_⟩
  have h3 := srcOf_spec case hm
  rw [Int.toNat_of_nonneg h1, Int.emod_sub_emod, show (n : Int) + case - case = n by ring,
    Int.emod_eq_of_lt (a := (n : Int)) (by omega) (by omega)] at h3
  omega

/-! ### The dictionary -/

/-- The pairs `(k, f k)` of a list of keys. -/
def graph (f : Nat → Nat) (ks : List Nat) : List (Nat × Nat) := ks.map fun k => (k, f k)

theorem deps0_eq (N : Nat) (case : Int) :
    deps0 N case = graph (srcOf N case) ((List.range N).filter fun k => k ≠ srcOf N case k) := by
  unfold deps0 srcs graph
  rw [show (List.range N).zip ((List.range N).map (srcOf N case)) = (List.range N).map fun k => (k, srcOf N case k) by
    apply List.ext_getElem <;> simp]
  rw [List.filter_map]
  rfl

theorem lookup_graph (f : Nat → Nat) (ks : List Nat) (v : Nat) :
    (graph f ks).lookup v = if v ∈ ks then some (f v) else none := by
  induction ks with
  | nil => rfl
  | cons k ks ih =>
    show List.lookup v ((k, f k) :: graph f ks) = _
    rw [List.lookup_cons]
    by_cases h : v = k
    · subst h; simp
    · rw [show (v == k) = false by simpa using h, ih]
      simp [h]

theorem filter_graph (f : Nat → Nat) (ks : List Nat) (v : Nat) :
    ((graph f ks).filter fun p => p.1 ≠ v) = graph f (ks.filter fun k => k ≠ v) := by
  unfold graph
  rw [List.filter_map]
  rfl

theorem dictSet_same (f : Nat → Nat) (ks : List Nat) (k : Nat) (h : k ∈ ks) : dictSet (graph f ks) k (f k) = graph f ks := by
  unfold dictSet
  have := lookup_graph f ks k
  rw [if_pos h] at this
  rw [if_pos (by rw [this]; rfl)]
  unfold graph
  rw [List.map_map]
  apply List.map_congr_left
  intro a _
  by_cases ha : a = k
  · subst ha; simp
  · simp [ha]

theorem deps_loop (N : Nat) (case : Int) : forRangeM N (deps0 N case) (depsStep N case) = .ok (deps0 N case) := by
  have key : ∀ di < N, depsStep N case di (deps0 N case) = .ok (deps0 N case) := by
    intro di hdi
    obtain ⟨m, hm, hmd⟩ := srcOf_surj case hdi
    have hmem : di ∈ srcs N case := List.mem_map.mpr ⟨m, by simpa using hm, hmd⟩
    unfold depsStep
    rw [if_pos hmem]
    dsimp only
    by_cases hs : (srcs N case).idxOf di > di
    · rw [if_pos hs]
      have hlt := List.idxOf_lt_length_of_mem hmem
      have hget := List.getElem_idxOf hlt
      have hlt' : (srcs N case).idxOf di < N := by simpa [srcs] using hlt
      have hall : ∀ i (h : i < (srcs N case).length), (srcs N case)[i] = srcOf N case i := by
        intro i h; simp [srcs]
      have hsrc : srcOf N case ((srcs N case).idxOf di) = di := by rw [← hall _ hlt]; exact hget
      rw [deps0_eq]
      have := dictSet_same (srcOf N case) ((List.range N).filter fun k => k ≠ srcOf N case k) ((srcs N case).idxOf di)
        (by
          rw [List.mem_filter]
          exact ⟨by simpa using hlt', by rw [hsrc]; simpa using (by omega : ¬ (srcs N case).idxOf di = di)⟩)
      rw [hsrc] at this
      rw [this]
    · rw [if_neg hs]
  have : ∀ k ≤ N, forRangeM k (deps0 N case) (depsStep N case) = .ok (deps0 N case) := by
    intro k
    induction k with
    | zero => intro _; rfl
    | succ k ih =>
      intro hk
      rw [forRangeM_succ, ih (by omega)]
      exact key k (by omega)
  exact this N le_rfl

/-! ### The cycles -/

/-- A cycle of `f`: distinct keys, each mapped to the next and the last one to the first. -/
structure IsCycle (f : Nat → Nat) (ks : List Nat) : Prop where
  nodup : ks.Nodup
  chain : ks.IsChain fun a b => f a = b
  ne : ks ≠ []
  close : f (ks.getLast ne) = ks.head ne

theorem chain_pre {f : Nat → Nat} {ks : List Nat} (hc : ks.IsChain fun a b => f a = b) {v : Nat} (hv : v ∈ ks)
    (hne : ks ≠ []) (hh : v ≠ ks.head hne) : ∃ l u l', ks = l ++ u :: v :: l' ∧ f u = v := by
  obtain ⟨l1, l2, rfl⟩ := List.append_of_mem hv
  rcases List.eq_nil_or_concat l1 with rfl | ⟨l, u, rfl⟩
  · simp at hh
  · refine ⟨l, u, l2, by simp, ?_⟩
    simp only [List.concat_eq_append, List.append_assoc, List.singleton_append] at hc
    have := (List.isChain_append.mp hc).2.1
    rw [List.isChain_cons_cons] at this
    exact this.1

theorem IsCycle.closed {f : Nat → Nat} {ks : List Nat} (h : IsCycle f ks) {k : Nat} (hk : k ∈ ks) : f k ∈ ks := by
  obtain ⟨l1, l2, rfl⟩ := List.append_of_mem hk
  cases l2 with
  | nil =>
    have := h.close
    simp only [List.getLast_append_singleton] at this
    rw [this]; exact List.head_mem _
  | cons b l2 =>
    have := (List.isChain_append.mp h.chain).2.1
    rw [List.isChain_cons_cons] at this
    rw [this.1]; simp

theorem IsCycle.pre {f : Nat → Nat} {ks : List Nat} (h : IsCycle f ks) {k : Nat} (hk : k ∈ ks) : ∃ u ∈ ks, f u = k := by
  by_cases hh : k = ks.head h.ne
  · exact ⟨_, List.getLast_mem h.ne, by rw [h.close, hh]⟩
  · obtain ⟨l, u, l', e, hu⟩ := chain_pre h.chain hk h.ne hh
    exact ⟨u, by rw [e]; simp, hu⟩

/-- Following the keys finds a cycle, and leaves the other keys. -/
theorem follow_spec {f : Nat → Nat} (n : Nat) : ∀ (ds ks : List Nat) (hne : ks ≠ []), ds.length < n →
    (ks ++ ds).Nodup → (∀ k ∈ ks ++ ds, f k ∈ ks ++ ds) → (∀ a ∈ ks ++ ds, ∀ b ∈ ks ++ ds, f a = f b → a = b) →
    (ks.IsChain fun a b => f a = b) →
    ∃ ks' ds', follow n (graph f ds) (ks.head hne) (f (ks.getLast hne)) (graph f ks) = .ok (graph f ks', graph f ds') ∧
      IsCycle f ks' ∧ (ks' ++ ds').Perm (ks ++ ds) := by
  induction n with
  | zero => intro ds ks _ h; omega
  | succ n ih =>
    intro ds ks hne hlen hnd hcl hinj hch
    set v := f (ks.getLast hne) with hv
    have hvm : v ∈ ks ++ ds := hcl _ (List.mem_append_left _ (List.getLast_mem hne))
    rw [follow, lookup_graph]
    by_cases hd : v ∈ ds
    · rw [if_pos hd]
      dsimp only
      rw [filter_graph]
      have hperm : (v :: ds.filter fun k => k ≠ v).Perm ds := by
        have := (List.perm_cons_erase hd).symm
        refine List.Perm.trans ?_ this
        rw [List.nodup_append.mp hnd |>.2.1.erase_eq_filter]
        rw [show (ds.filter fun k => decide (k ≠ v)) = ds.filter (· != v) from
          List.filter_congr fun a _ => by by_cases h : a = v <;> simp [h]]
      have hperm2 : ((ks ++ [v]) ++ ds.filter fun k => k ≠ v).Perm (ks ++ ds) := by
        rw [List.append_assoc, List.singleton_append]
        exact List.Perm.append_left _ hperm
      have hg : graph f ks ++ [(v, f v)] = graph f (ks ++ [v]) := by simp [graph]
      rw [hg]
      obtain ⟨ks', ds', h1, h2, h3⟩ := ih (ds.filter fun k => k ≠ v) (ks ++ [v]) (by simp)
        (by have := hperm.length_eq; simp only [List.length_cons] at this; omega)
        (hperm2.nodup_iff.mpr hnd) (fun k hk => hperm2.mem_iff.mpr (hcl k (hperm2.mem_iff.mp hk)))
        (fun a ha b hb => hinj a (hperm2.mem_iff.mp ha) b (hperm2.mem_iff.mp hb))
        (by
          rw [List.isChain_append]
          refine ⟨hch, by simp, ?_⟩
          intro x hx y hy
          rw [List.getLast?_eq_getLast_of_ne_nil hne] at hx
          simp only [Option.mem_def, Option.some.injEq] at hx
          simp only [List.head?_cons, Option.mem_def, Option.some.injEq] at hy
          rw [← hx, ← hy])
      refine ⟨ks', ds', ?_, h2, h3.trans hperm2⟩
      rw [← h1]
      congr 1
      · rw [List.head_append_of_ne_nil hne]
      · simp
    · rw [if_neg hd]
      have hvk : v ∈ ks := by
        rcases List.mem_append.mp hvm with h | h
        · exact h
        · exact absurd h hd
      have hh : v = ks.head hne := by
        by_contra hh
        obtain ⟨l, u, l', e, hu⟩ := chain_pre hch hvk hne hh
        have hlast : ks.getLast hne ∈ v :: l' := by
          have : ks.getLast hne = (v :: l').getLast (by simp) := by
            rw [← List.getLast_append_of_ne_nil (l := l ++ [u]) (by simp) (by simp : v :: l' ≠ [])]
            congr 1
            rw [e]; simp
          rw [this]; exact List.getLast_mem _
        have hum : u ∈ ks := by rw [e]; simp
        have : u = ks.getLast hne := hinj u (List.mem_append_left _ hum) _ (List.mem_append_left _ (List.getLast_mem hne))
          (by rw [hu])
        have hnk := (List.nodup_append.mp hnd).1
        rw [e, List.nodup_append] at hnk
        have := List.nodup_cons.mp hnk.2.1
        exact this.1 (by rw [‹u = _›]; exact hlast)
      dsimp only
      rw [if_pos hh]
      exact ⟨ks, ds, rfl, ⟨(List.nodup_append.mp hnd).1, hch, hne, hh⟩, List.Perm.refl _⟩

theorem cycleLoop_spec {f : Nat → Nat} (n : Nat) : ∀ (ds : List Nat) (cs : List (List (Nat × Nat))), ds.length < n →
    ds.Nodup → (∀ k ∈ ds, f k ∈ ds) → (∀ a ∈ ds, ∀ b ∈ ds, f a = f b → a = b) →
    ∃ kss : List (List Nat), cycleLoop n (graph f ds) cs = .ok (cs ++ kss.map (graph f)) ∧
      (∀ ks ∈ kss, IsCycle f ks) ∧ kss.flatten.Perm ds := by
  induction n with
  | zero => intro ds _ h; omega
  | succ n ih =>
    intro ds cs hlen hnd hcl hinj
    rw [cycleLoop]
    rcases List.eq_nil_or_concat ds with rfl | ⟨l, k, rfl⟩
    · exact ⟨[], by simp [graph], by simp, by simp⟩
    · rw [List.concat_eq_append] at *
      have hg : graph f (l ++ [k]) = graph f l ++ [(k, f k)] := by simp [graph]
      rw [hg, List.getLast?_concat, List.dropLast_concat]
      dsimp only
      have hperm : ([k] ++ l).Perm (l ++ [k]) := List.perm_append_comm
      obtain ⟨ks', ds', h1, h2, h3⟩ := follow_spec (f := f) ((graph f l ++ [(k, f k)]).length + 1) l [k] (by simp)
        (by simp [graph]) (hperm.nodup_iff.mpr hnd) (fun a ha => hperm.mem_iff.mpr (hcl a (hperm.mem_iff.mp ha)))
        (fun a ha b hb => hinj a (hperm.mem_iff.mp ha) b (hperm.mem_iff.mp hb)) (by simp)
      have h1' : follow ((graph f l ++ [(k, f k)]).length + 1) (graph f l) k (f k) [(k, f k)] = .ok (graph f ks', graph f ds') := h1
      rw [h1']
      dsimp only
      have h4 := h3.trans hperm
      have hnd' := h4.nodup_iff.mpr hnd
      obtain ⟨kss, e, hc, hp⟩ := ih ds' (cs ++ [graph f ks'])
        (by
          have := h4.length_eq
          have h5 : 0 < ks'.length := List.length_pos_iff.mpr h2.ne
          simp only [List.length_append, List.length_singleton] at this hlen
          omega)
        (List.nodup_append.mp hnd').2.1
        (by
          intro a ha
          rcases List.mem_append.mp (h4.mem_iff.mpr (hcl a (h4.mem_iff.mp (List.mem_append_right _ ha)))) with hm | hm
          · obtain ⟨u, hu, hue⟩ := h2.pre hm
            have := hinj u (h4.mem_iff.mp (List.mem_append_left _ hu)) a (h4.mem_iff.mp (List.mem_append_right _ ha)) hue
            subst this
            exact absurd rfl ((List.nodup_append.mp hnd').2.2 u hu u ha)
          · exact hm)
        (fun a ha b hb => hinj a (h4.mem_iff.mp (List.mem_append_right _ ha)) b (h4.mem_iff.mp (List.mem_append_right _ hb)))
      refine ⟨ks' :: kss, ?_, ?_, ?_⟩
      · rw [e]; simp
      · intro ks hks
        rcases List.mem_cons.mp hks with rfl | h
        · exact h2
        · exact hc ks h
      · rw [List.flatten_cons]
        exact (List.Perm.append_left _ hp).trans h4

theorem registerAssign_cycles (N : Nat) (case : Int) : ∃ kss : List (List Nat),
    registerAssignCycles N case = .ok (kss.map (graph (srcOf N case))) ∧ (∀ ks ∈ kss, IsCycle (srcOf N case) ks) ∧
      kss.flatten.Perm ((List.range N).filter fun k => k ≠ srcOf N case k) := by
  unfold registerAssignCycles
  rw [deps_loop]
  dsimp only
  rw [deps0_eq]
  have hmem : ∀ k, k ∈ (List.range N).filter (fun k => k ≠ srcOf N case k) ↔ k < N ∧ k ≠ srcOf N case k := by
    intro k; simp
  obtain ⟨kss, h1, h2, h3⟩ := cycleLoop_spec (f := srcOf N case)
    ((graph (srcOf N case) ((List.range N).filter fun k => k ≠ srcOf N case k)).length + 1)
    ((List.range N).filter fun k => k ≠ srcOf N case k) [] (by simp [graph]) (List.nodup_range.filter _)
    (by
      intro k hk
      rw [hmem] at hk ⊢
      refine ⟨srcOf_lt case hk.1, fun h => hk.2 ?_⟩
      exact srcOf_inj hk.1 (srcOf_lt case hk.1) h)
    (by
      intro a ha b hb h
      rw [hmem] at ha hb
      exact srcOf_inj ha.1 hb.1 h)
  exact ⟨kss, by simpa using h1, h2, h3⟩

/-! ### Executing the cycles -/

theorem execPairs_spec {f : Nat → Nat} (tmp : α) (a : Nat) : ∀ (l : List Nat) (r : Nat → α), l.Nodup →
    (l.IsChain fun a b => f a = b) → (∀ hne : l ≠ [], f (l.getLast hne) = a) → ∀ d,
    execPairs tmp a (graph f l) r d = if d ∈ l then (if f d = a then tmp else r (f d)) else r d := by
  intro l
  induction l with
  | nil => intro r _ _ _ d; rfl
  | cons k l ih =>
    intro r hnd hch hlast d
    show execPairs tmp a ((k, f k) :: graph f l) r d = _
    rw [execPairs, ih _ (List.nodup_cons.mp hnd).2 hch.tail (by
      intro hne
      have := hlast (by simp)
      rwa [List.getLast_cons hne] at this)]
    have hkl := (List.nodup_cons.mp hnd).1
    have hnext : ∀ d ∈ l, f d ≠ a → f d ≠ k := by
      intro d hd hda hdk
      obtain ⟨l1, l2, rfl⟩ := List.append_of_mem hd
      cases l2 with
      | nil =>
        have := hlast (by simp)
        rw [List.getLast_cons (by simp), List.getLast_append_singleton] at this
        exact hda this
      | cons b l2 =>
        have := (List.isChain_append.mp (List.IsChain.tail hch)).2.1
        rw [List.isChain_cons_cons] at this
        apply hkl
        rw [← hdk, this.1]; simp
    by_cases hdl : d ∈ l
    · rw [if_pos hdl, if_pos (List.mem_cons_of_mem _ hdl)]
      by_cases hda : f d = a
      · rw [if_pos hda, if_pos hda]
      · rw [if_neg hda, if_neg hda, Function.update_of_ne (hnext d hdl hda)]
    · rw [if_neg hdl]
      by_cases hdk : d = k
      · subst hdk
        rw [Function.update_self, if_pos List.mem_cons_self]
      · rw [Function.update_of_ne hdk, if_neg (by simp [hdk, hdl])]

theorem execCycle_spec {f : Nat → Nat} {ks : List Nat} (h : IsCycle f ks) (r : Nat → α) (d : Nat) :
    execCycle (graph f ks) r d = if d ∈ ks then r (f d) else r d := by
  obtain ⟨hnd, hch, hne, hcl⟩ := h
  cases ks with
  | nil => exact absurd rfl hne
  | cons k l =>
    have := execPairs_spec (f := f) (r k) k (k :: l) r hnd hch (fun _ => hcl) d
    show execPairs (r k) k (graph f (k :: l)) r d = _
    rw [this]
    split
    · split
      · rename_i h; rw [h]
      · rfl
    · rfl

theorem execCycles_spec {f : Nat → Nat} : ∀ (kss : List (List Nat)) (r : Nat → α), (∀ ks ∈ kss, IsCycle f ks) →
    kss.flatten.Nodup → ∀ d, execCycles (kss.map (graph f)) r d = if d ∈ kss.flatten then r (f d) else r d := by
  intro kss
  induction kss with
  | nil => intro r _ _ d; rfl
  | cons ks kss ih =>
    intro r hc hnd d
    rw [List.flatten_cons] at hnd
    have hnd' := List.nodup_append.mp hnd
    have := ih (execCycle (graph f ks) r) (fun k hk => hc k (List.mem_cons_of_mem _ hk)) hnd'.2.1 d
    show execCycles (kss.map (graph f)) (execCycle (graph f ks) r) d = _
    rw [this, List.flatten_cons]
    have hks := hc ks (by simp)
    by_cases hd : d ∈ kss.flatten
    · have hfd : f d ∈ kss.flatten := by
        obtain ⟨k, hk, hdk⟩ := List.mem_flatten.mp hd
        exact List.mem_flatten.mpr ⟨k, hk, (hc k (List.mem_cons_of_mem _ hk)).closed hdk⟩
      rw [if_pos hd, if_pos (List.mem_append_right _ hd), execCycle_spec hks, if_neg]
      exact fun h => hnd'.2.2 _ h _ hfd rfl
    · rw [if_neg hd, execCycle_spec hks]
      by_cases hdk : d ∈ ks
      · rw [if_pos hdk, if_pos (List.mem_append_left _ hdk)]
      · rw [if_neg hdk, if_neg (by simp only [List.mem_append]; tauto)]

/-- The cycles of a rotation, executed in order, move every register to its place. -/
theorem exec_rotation (N : Nat) (case : Int) : ∃ cs, registerAssignCycles N case = .ok cs ∧
    ∀ (r : Nat → α) (d : Nat), execCycles cs r d = if d < N then r (srcOf N case d) else r d := by
  obtain ⟨kss, h1, h2, h3⟩ := registerAssign_cycles N case
  refine ⟨_, h1, fun r d => ?_⟩
  rw [execCycles_spec kss r h2 (h3.nodup_iff.mpr (List.nodup_range.filter _))]
  have hm : d ∈ kss.flatten ↔ d < N ∧ d ≠ srcOf N case d := by rw [h3.mem_iff]; simp
  by_cases hd : d < N
  · rw [if_pos hd]
    by_cases he : d = srcOf N case d
    · rw [if_neg (by rw [hm]; tauto), ← he]
    · rw [if_pos (hm.mpr ⟨hd, he⟩)]
  · rw [if_neg (by rw [hm]; tauto), if_neg hd]

/-! ### C63 -/

/-- **C63.** The assignments never fail (in particular the assertion holds). Executed in order, with one temporary, they
rotate the registers by `case` and leave the others alone. -/
theorem C63_rotation (N : Nat) (case : Int) : ∃ cs, registerAssignCycles N case = .ok cs ∧
    ∀ (r : Nat → α) (d : Nat), execCycles cs r d = if d < N then r (((d : Int) - case) % N).toNat else r d := by
  obtain ⟨cs, h1, h2⟩ := exec_rotation (α := α) N case
  refine ⟨cs, h1, fun r d => ?_⟩
  rw [h2]
  split
  · rename_i h
    rw [← srcOf_spec case h, Int.toNat_natCast]
  · rfl

/-- **C63.** The result is a list of cycles `(k0, k1), (k1, k2), ..., (km, k0)` of at least two distinct registers. No register
is in two places, and the assignments are exactly those that change something. -/
theorem C63_cycles (N : Nat) (case : Int) : ∃ cs, registerAssignCycles N case = .ok cs ∧
    (∀ c ∈ cs, ∃ ks : List Nat, 2 ≤ ks.length ∧ ks.Nodup ∧ c = ks.zip (ks.rotate 1)) ∧
    (cs.flatten.map Prod.fst).Nodup ∧
    ∀ d s : Nat, (d, s) ∈ cs.flatten ↔ d < N ∧ (s : Int) = ((d : Int) - case) % N ∧ d ≠ s := by
  obtain ⟨kss, h1, h2, h3⟩ := registerAssign_cycles N case
  have hfl : (kss.map (graph (srcOf N case))).flatten = graph (srcOf N case) kss.flatten := by
    unfold graph; rw [List.map_flatten]
  have hm : ∀ d, d ∈ kss.flatten ↔ d < N ∧ d ≠ srcOf N case d := by intro d; rw [h3.mem_iff]; simp
  refine ⟨_, h1, ?_, ?_, ?_⟩
  · intro c hc
    obtain ⟨ks, hks, rfl⟩ := List.mem_map.mp hc
    have hcyc := h2 ks hks
    refine ⟨ks, ?_, hcyc.nodup, ?_⟩
    · by_contra hlt
      cases hk : ks with
      | nil => exact hcyc.ne hk
      | cons k l =>
        have : l = [] := by rw [hk] at hlt; cases l; rfl; simp at hlt
        subst this
        have hcl := hcyc.close
        simp only [hk, List.getLast_singleton, List.head_cons] at hcl
        have := (hm k).mp (List.mem_flatten.mpr ⟨ks, hks, by rw [hk]; simp⟩)
        exact this.2 hcl.symm
    · apply List.ext_getElem
      · simp [graph]
      · intro i hi _
        simp only [graph, List.length_map] at hi
        simp only [graph, List.getElem_map, List.getElem_zip, List.getElem_rotate, Prod.mk.injEq, true_and]
        by_cases hl : i + 1 < ks.length
        · have := List.isChain_iff_getElem.mp hcyc.chain i hl
          rw [this]
          congr 1
          rw [Nat.mod_eq_of_lt hl]
        · have hcl := hcyc.close
          have hie : i = ks.length - 1 := by omega
          rw [List.getLast_eq_getElem] at hcl
          rw [List.head_eq_getElem] at hcl
          have : (i + 1) % ks.length = 0 := by rw [show i + 1 = ks.length by omega, Nat.mod_self]
          simp only [this]
          subst hie
          exact hcl
  · rw [hfl]
    have : (graph (srcOf N case) kss.flatten).map Prod.fst = kss.flatten := by
      unfold graph; rw [List.map_map]; exact List.map_id _
    rw [this]
    exact h3.nodup_iff.mpr (List.nodup_range.filter _)
  · intro d s
    rw [hfl]
    unfold graph
    rw [List.mem_map]
    constructor
    · rintro ⟨k, hk, e⟩
      simp only [Prod.mk.injEq] at e
      obtain ⟨rfl, rfl⟩ := e
      have := (hm k).mp hk
      exact ⟨this.1, srcOf_spec case this.1, this.2⟩
    · rintro ⟨hd, hs, hne⟩
      rw [← srcOf_spec case hd] at hs
      have : s = srcOf N case d := by omega
      subst this
      exact ⟨d, (hm d).mpr ⟨hd, hne⟩, rfl⟩

example : registerAssignCycles 6 2 = .ok [[(5, 3), (3, 1), (1, 5)], [(4, 2), (2, 0), (0, 4)]] := by decide

/-! ### The horizontal rotations -/

/-- The addresses at each register. -/
def addrSeq (n : Nat) (next addr0 : Nat → Nat) : Nat → Nat → Nat
  | 0, lane => addr0 lane
  | k + 1, lane => addrSeq n next addr0 k (next lane % n)

theorem horizontal_spec (n : Nat) (next addr0 : Nat → Nat) (x : Nat → Nat → α) (lane reg : Nat) :
    horizontal n next addr0 x lane reg = if reg < n then x (addrSeq n next addr0 reg lane % n) reg else x lane reg := by
  have := forRange_inv (P := fun k (s : (Nat → Nat → α) × (Nat → Nat)) =>
      (k < n → ∀ lane, s.2 lane = addrSeq n next addr0 k lane) ∧
      ∀ lane reg, s.1 lane reg = if reg < k then x (addrSeq n next addr0 reg lane % n) reg else x lane reg)
    (n := n) (init := (x, addr0)) (f := fun case (s : (Nat → Nat → α) × (Nat → Nat)) =>
    ((fun lane => Function.update (s.1 lane) case (shfl n (fun l => s.1 l case) s.2 lane)),
      (if case + 1 = n then s.2 else fun lane => shfl n s.2 next lane)))
    ⟨fun _ _ => rfl, fun _ _ => by simp⟩
    (by
      intro k s hk ⟨h1, h2⟩
      refine ⟨fun hk' lane => ?_, fun lane reg => ?_⟩
      · dsimp only
        rw [if_neg (by omega)]
        exact h1 hk _
      · dsimp only
        by_cases hr : reg = k
        · subst hr
          rw [Function.update_self, if_pos (by omega), shfl, h1 hk, h2, if_neg (by omega)]
        · rw [Function.update_of_ne hr, h2]
          by_cases hlt : reg < k
          · rw [if_pos hlt, if_pos (by omega)]
          · rw [if_neg hlt, if_neg (by omega)])
  exact this.2 lane reg

theorem vertical_spec (n : Nat) (x : Nat → Nat → α) : ∃ y, vertical n x = .ok y ∧ ∀ lane reg, lane < n → reg < n →
    y lane reg = x lane (srcOf n lane reg) := by
  have : ∀ k ≤ n, ∃ y, forRangeM k x (fun case x => match registerAssignCycles n case with
      | .error e => .error e
      | .ok cs => .ok fun lane => if lane = case then execCycles cs (x lane) else x lane) = Except.ok (ε := PyErr) y ∧
      ∀ lane reg, reg < n → y lane reg = if lane < k then x lane (srcOf n lane reg) else x lane reg := by
    intro k
    induction k with
    | zero => intro _; exact ⟨x, rfl, fun _ _ _ => by simp⟩
    | succ k ih =>
      intro hk
      obtain ⟨y, h1, h2⟩ := ih (by omega)
      obtain ⟨cs, h3, h4⟩ := exec_rotation (α := α) n (k : Int)
      refine ⟨fun lane => if lane = k then execCycles cs (y lane) else y lane, ?_, ?_⟩
      · rw [forRangeM_succ, h1]
        show (match registerAssignCycles n (k : Int) with
          | .error e => Except.error e
          | .ok cs => Except.ok fun lane => if lane = k then execCycles cs (y lane) else y lane) = _
        rw [h3]
      · intro lane reg hreg
        dsimp only
        by_cases hl : lane = k
        · subst hl
          rw [if_pos rfl, h4, if_pos hreg, h2 _ _ (srcOf_lt _ hreg), if_neg (by omega), if_pos (by omega)]
        · rw [if_neg hl, h2 _ _ hreg]
          by_cases hlt : lane < k
          · rw [if_pos hlt, if_pos (by omega)]
          · rw [if_neg hlt, if_neg (by omega)]
  obtain ⟨y, h1, h2⟩ := this n le_rfl
  exact ⟨y, h1, fun lane reg hl hr => by rw [h2 lane reg hr, if_pos hl]⟩

theorem addr_first {n : Nat} (next : Nat → Nat) (hnext : ∀ c, next c = (c + 1) % n) : ∀ k lane,
    addrSeq n next (fun c => c) k lane % n = (lane + k) % n := by
  intro k
  induction k with
  | zero => intro lane; rfl
  | succ k ih =>
    intro lane
    rw [addrSeq, ih, hnext, Nat.mod_mod, Nat.mod_add_mod]
    congr 1; omega

theorem addr_last {n : Nat} (hn : 0 < n) (next addr0 : Nat → Nat) (hnext : ∀ c, next c = (c + (n - 1)) % n)
    (h0 : ∀ c, addr0 c = (n - c) % n) : ∀ k lane, lane < n → addrSeq n next addr0 k lane % n = (n - lane + k) % n := by
  intro k
  induction k with
  | zero => intro lane _; rw [addrSeq, h0, Nat.mod_mod, Nat.add_zero]
  | succ k ih =>
    intro lane hl
    rw [addrSeq, ih _ (Nat.mod_lt _ hn), hnext, Nat.mod_mod]
    rcases Nat.eq_zero_or_pos lane with rfl | hp
    · rw [Nat.zero_add, Nat.mod_eq_of_lt (a := n - 1) (by omega), show n - (n - 1) + k = k + 1 by omega, Nat.sub_zero,
        Nat.add_mod_left]
    · rw [show lane + (n - 1) = (lane - 1) + n by omega, Nat.add_mod_right, Nat.mod_eq_of_lt (a := lane - 1) (by omega),
        show n - (lane - 1) + k = n - lane + (k + 1) by omega]

theorem and_pred_eq_zero {n : Nat} (hn : 1 ≤ n) (h : n &&& (n - 1) = 0) : ∃ k, n = 2 ^ k := by
  refine ⟨n.log2, ?_⟩
  have h1 : 2 ^ n.log2 ≤ n := Nat.log2_self_le (by omega)
  have h2 : n < 2 ^ (n.log2 + 1) := Nat.lt_log2_self
  by_contra hne
  have hb1 : n.testBit n.log2 = true := by
    rw [Nat.testBit_eq_decide_div_mod_eq, Nat.div_eq_of_lt_le (k := 1) (by omega) (by omega)]; rfl
  have hb2 : (n - 1).testBit n.log2 = true := by
    rw [Nat.testBit_eq_decide_div_mod_eq, Nat.div_eq_of_lt_le (k := 1) (by omega) (by omega)]; rfl
  have : (n &&& (n - 1)).testBit n.log2 = true := by rw [Nat.testBit_and, hb1, hb2]; rfl
  rw [h] at this
  simp at this

/-! ### C91 -/

/-- **C91.** For a length that is a power of two, the generated code transposes: afterwards register `reg` of thread `lane` has
what register `lane` of thread `reg` had. -/
theorem C91_transpose (k : Nat) (x : Nat → Nat → α) : ∃ y, warpTranspose (2 ^ k) x = .ok y ∧
    ∀ lane reg, lane < 2 ^ k → reg < 2 ^ k → y lane reg = x reg lane := by
  have hpos : 0 < 2 ^ k := Nat.two_pow_pos k
  have hand : ∀ a, a &&& (2 ^ k - 1) = a % 2 ^ k := fun a => Nat.and_two_pow_sub_one_eq_mod a k
  unfold warpTranspose
  rw [if_neg (by rw [hand, Nat.mod_self]; omega)]
  by_cases h1 : 2 ^ k > 1
  · rw [if_pos h1]
    dsimp only
    simp only [hand]
    generalize 2 ^ k = n at *
    obtain ⟨y, hy, hy'⟩ := vertical_spec n (horizontal n (fun c => (c + 1) % n) (fun c => c) x)
    rw [hy]
    refine ⟨_, rfl, fun lane reg hl hr => ?_⟩
    have hm : (n - lane + reg) % n < n := Nat.mod_lt _ hpos
    rw [horizontal_spec, if_pos hr, addr_last hpos _ _ (fun _ => rfl) (fun _ => rfl) _ _ hl, hy' _ _ hm hr, horizontal_spec,
      if_pos (srcOf_lt _ hr), addr_first _ (fun _ => rfl)]
    have hs : srcOf n ((n - lane + reg) % n : Nat) reg = lane := by
      have := srcOf_spec (((n - lane + reg) % n : Nat) : Int) hr
      have h3 : ((((n - lane + reg) % n : Nat) : Int)) = ((reg : Int) - lane) % n := by
        rw [Int.natCast_mod, Nat.cast_add, Nat.cast_sub hl.le,
          show (n : Int) - lane + reg = (reg - lane) + n by ring, Int.add_emod_right]
      rw [h3, Int.sub_emod_emod] at this
      rw [h3]
      rw [show (reg : Int) - (reg - lane) = lane by ring, Int.emod_eq_of_lt (a := (lane : Int)) (by omega) (by omega)] at this
      omega
    rw [hs]
    congr 1
    rw [Nat.mod_add_mod, show n - lane + reg + lane = reg + n by omega, Nat.add_mod_right, Nat.mod_eq_of_lt hr]
  · rw [if_neg h1]
    refine ⟨x, rfl, fun lane reg hl hr => ?_⟩
    rw [show lane = 0 by omega, show reg = 0 by omega]

/-- **C91.** Other lengths are rejected with `TemplatingException` when the template is rendered. -/
theorem C91_reject (n : Nat) (h : ∀ k, n ≠ 2 ^ k) (x : Nat → Nat → α) : warpTranspose n x = .error .templatingException := by
  unfold warpTranspose
  rw [if_pos]
  by_contra hc
  push Not at hc
  obtain ⟨k, hk⟩ := and_pred_eq_zero hc.1 hc.2
  exact h k hk

example : ∃ y, warpTranspose 4 (fun lane reg => 10 * lane + reg) = .ok y ∧ y 1 2 = 21 := by
  obtain ⟨y, h, hy⟩ := C91_transpose 2 (fun lane reg => 10 * lane + reg)
  exact ⟨y, h, hy 1 2 (by decide) (by decide)⟩

example : ∀ k, 6 ≠ 2 ^ k := by
  intro k h
  have : k < 6 := by
    by_contra hk
    have := Nat.pow_le_pow_right (n := 2) (by decide) (show 6 ≤ k by omega)
    omega
  interval_cases k <;> omega

end Verif.Util.Cycles
