/-
C52 (aggregate_chunks), C53 (corr_shape), C54 (Stokes maps) and C62 (grids).
-/
import Verif.Util.Shapes
import Verif.ModelData.Coherency
import Mathlib.Algebra.BigOperators.Group.List.Basic
import Mathlib.Data.List.Nodup
import Mathlib.Tactic.Linarith
import Mathlib.Tactic.Ring

set_option autoImplicit false

namespace Verif.Util

/-! ### Specification -/

/-- The size of a group of chunks (given by their positions) in one dimension. -/
def groupSize (c : List Int) (p : List Nat) : Int := (p.map fun i => c.getD i 0).sum

/-- Some dimension of the group exceeds its maximum. -/
def Exceeds (chunks : List (List Int)) (maxs : List Int) (p : List Nat) : Prop :=
  ∃ (ci : Nat) (c : List Int) (m : Int), chunks[ci]? = some c ∧ maxs[ci]? = some m ∧ m < groupSize c p

/-! ### C52 -/

theorem any_exceeds (chunks : List (List Int)) (maxs : List Int) (p : List Nat) (i : Nat) :
    (List.zipWith (fun s m => decide (s > m)) (List.zipWith (· + ·) (chunks.map fun c => groupSize c p)
      (chunks.map fun c => c.getD i 0)) maxs).any id = true ↔ Exceeds chunks maxs (p ++ [i]) := by
  rw [List.any_eq_true]
  constructor
  · rintro ⟨b, hb, hid⟩
    obtain ⟨ci, hci⟩ := List.getElem?_of_mem hb
    rw [List.getElem?_zipWith, List.getElem?_zipWith, List.getElem?_map, List.getElem?_map] at hci
    cases h1 : chunks[ci]? with
    | none => rw [h1] at hci; simp at hci
    | some c =>
      cases h2 : maxs[ci]? with
      | none => rw [h1, h2] at hci; simp at hci
      | some m =>
        rw [h1, h2] at hci
        simp only [Option.map_some, Option.some.injEq] at hci
        refine ⟨ci, c, m, h1, h2, ?_⟩
        rw [id] at hid
        rw [hid] at hci
        have : groupSize c p + c.getD i 0 > m := by simpa using hci
        simpa [groupSize] using this
  · rintro ⟨ci, c, m, h1, h2, h3⟩
    refine ⟨true, List.mem_of_getElem? (i := ci) ?_, rfl⟩
    rw [List.getElem?_zipWith, List.getElem?_zipWith, List.getElem?_map, List.getElem?_map, h1, h2]
    have : m < groupSize c p + c.getD i 0 := by simpa [groupSize] using h3
    simpa using this

/-- Loop invariant: the finished groups and the current group. -/
structure AggInv (chunks : List (List Int)) (maxs : List Int) (k : Nat) (st : Agg) (done : List (List Nat))
    (cur : List Nat) : Prop where
  flat : (done ++ [cur]).flatten = List.range k
  chunks_eq : st.chunks = chunks.map fun c => done.map (groupSize c)
  counts_eq : st.counts = chunks.map fun c => groupSize c cur
  small : ∀ p ∈ done ++ [cur], 2 ≤ p.length → ¬ Exceeds chunks maxs p
  cur_ne : 0 < k → cur ≠ []
  head_ne : ∀ p ∈ done.tail, p ≠ []
  first : ∀ p, done.head? = some p → p = [] → Exceeds chunks maxs [0]
  greedy : ∀ (j : Nat) (p q : List Nat), (done ++ [cur])[j]? = some p → (done ++ [cur])[j + 1]? = some q →
    ∃ i, q.head? = some i ∧ Exceeds chunks maxs (p ++ [i])

theorem aggStep_inv {chunks : List (List Int)} {maxs : List Int} {k : Nat} {st : Agg} {done : List (List Nat)}
    {cur : List Nat} (hl : chunks.length = maxs.length) (h : AggInv chunks maxs k st done cur) :
    ∃ done' cur', AggInv chunks maxs (k + 1) (aggStep maxs (chunks.map fun c => c.getD k 0) st) done' cur' := by
  have hany := any_exceeds chunks maxs cur k
  unfold aggStep
  rw [h.counts_eq, h.chunks_eq]
  simp only
  by_cases he : Exceeds chunks maxs (cur ++ [k])
  · rw [if_pos (hany.2 he)]
    refine ⟨done ++ [cur], [k], ?_, ?_, ?_, ?_, ?_, ?_, ?_, ?_⟩
    · rw [List.flatten_append, h.flat, List.range_succ]; rfl
    · apply List.ext_getElem?
      intro j
      rw [List.getElem?_zipWith, List.getElem?_map, List.getElem?_map, List.getElem?_map]
      cases chunks[j]? <;> simp
    · apply List.map_congr_left
      intro c _
      simp [groupSize]
    · intro p hp hlen
      rcases List.mem_append.1 hp with hp | hp
      · exact h.small p hp hlen
      · rw [List.mem_singleton.1 hp] at hlen; simp at hlen
    · intro _; simp
    · intro p hp
      cases done with
      | nil => simp at hp
      | cons d done =>
        rw [List.cons_append, List.tail_cons, List.mem_append, List.mem_singleton] at hp
        rcases hp with hp | rfl
        · exact h.head_ne p hp
        · apply h.cur_ne
          by_contra hk
          obtain rfl : k = 0 := by omega
          have hf := h.flat
          rw [List.range_zero] at hf
          have hd : d = [] := by
            rw [List.flatten_eq_nil_iff] at hf; exact hf d (by simp)
          obtain ⟨i, hi, _⟩ : ∃ i, ((done ++ [p]).head?.getD []).head? = some i ∧ True := by
            cases done with
            | nil => obtain ⟨i, hi, _⟩ := h.greedy 0 d p rfl rfl; exact ⟨i, hi, trivial⟩
            | cons e done => obtain ⟨i, hi, _⟩ := h.greedy 0 d e rfl rfl; exact ⟨i, hi, trivial⟩
          rw [List.flatten_eq_nil_iff] at hf
          have : (done ++ [p]).head?.getD [] = [] := by
            cases done with
            | nil => exact hf p (by simp)
            | cons e done => exact hf e (by simp)
          rw [this] at hi
          cases hi
    · intro p hp hpn
      subst hpn
      cases done with
      | nil =>
        simp only [List.nil_append, List.head?_cons, Option.some.injEq] at hp
        subst hp
        have hk : k = 0 := by
          by_contra hk
          exact h.cur_ne (by omega) rfl
        subst hk
        exact he
      | cons d done =>
        exact h.first [] (by simpa using hp) rfl
    · intro j p q hp hq
      by_cases hj : j + 1 < (done ++ [cur]).length
      · rw [List.getElem?_append_left (by omega)] at hp
        rw [List.getElem?_append_left hj] at hq
        exact h.greedy j p q hp hq
      · have hlen : j + 1 < (done ++ [cur] ++ [[k]]).length := (List.getElem?_eq_some_iff.1 hq).1
        have hj' : j + 1 = (done ++ [cur]).length := by
          simp only [List.length_append, List.length_singleton] at hlen hj ⊢; omega
        rw [hj', List.getElem?_concat_length] at hq
        obtain rfl := Option.some.inj hq
        have hj'' : j = done.length := by simp at hj'; omega
        rw [List.getElem?_append_left (by omega), hj'', List.getElem?_concat_length] at hp
        obtain rfl := Option.some.inj hp
        exact ⟨k, rfl, he⟩
  · rw [if_neg (fun hh => he (hany.1 hh))]
    refine ⟨done, cur ++ [k], ?_, rfl, ?_, ?_, ?_, h.head_ne, h.first, ?_⟩
    · have hf := h.flat
      rw [List.flatten_append] at hf ⊢
      rw [List.range_succ, ← hf]
      simp
    · apply List.ext_getElem?
      intro j
      rw [List.getElem?_zipWith, List.getElem?_map, List.getElem?_map, List.getElem?_map]
      cases chunks[j]? <;> simp [groupSize]
    · intro p hp hlen
      rcases List.mem_append.1 hp with hp | hp
      · exact h.small p (List.mem_append_left _ hp) hlen
      · rw [List.mem_singleton.1 hp]; exact he
    · intro _; simp
    · intro j p q hp hq
      have hlen : j + 1 < (done ++ [cur ++ [k]]).length := (List.getElem?_eq_some_iff.1 hq).1
      simp only [List.length_append, List.length_singleton] at hlen
      rw [List.getElem?_append_left (by omega)] at hp
      by_cases hj : j + 1 < done.length
      · rw [List.getElem?_append_left hj] at hq
        exact h.greedy j p q (by rw [List.getElem?_append_left (by omega)]; exact hp)
          (by rw [List.getElem?_append_left hj]; exact hq)
      · have hj' : j + 1 = done.length := by omega
        rw [hj', List.getElem?_concat_length] at hq
        obtain rfl := Option.some.inj hq
        obtain ⟨i, hi, hx⟩ := h.greedy j p cur (by rw [List.getElem?_append_left (by omega)]; exact hp)
          (by rw [hj', List.getElem?_concat_length])
        refine ⟨i, ?_, hx⟩
        cases cur with
        | nil => cases hi
        | cons a cur => exact hi

/-- **C52**, in part: the chunks of all dimensions are grouped in the same way into runs of consecutive chunks, in order and
without losing or repeating any; each output chunk is the total of its group. A group of two or more chunks does not exceed
the maximum in any dimension, and together with the next chunk it would. Only the first group can be empty, and only if the
first chunk by itself exceeds a maximum; missing is that this does not happen (`C52_violated`). -/
theorem C52_groups_partial (chunks : List (List Int)) (maxs : List Int) (out : List (List Int))
    (h : aggregateSeq chunks maxs = .ok out) :
    ∃ n, (∀ c ∈ chunks, c.length = n) ∧
    ∃ parts : List (List Nat), parts.flatten = List.range n ∧ out = chunks.map (fun c => parts.map (groupSize c)) ∧
      (∀ p ∈ parts, 2 ≤ p.length → ¬ Exceeds chunks maxs p) ∧
      (∀ (j : Nat) (p q : List Nat), parts[j]? = some p → parts[j + 1]? = some q →
        ∃ i, q.head? = some i ∧ Exceeds chunks maxs (p ++ [i])) ∧
      (∀ p ∈ parts.tail, p ≠ []) ∧ (¬ Exceeds chunks maxs [0] → ∀ p ∈ parts, p ≠ []) := by
  unfold aggregateSeq at h
  split at h
  · cases h
  rename_i hl
  push Not at hl
  cases chunks with
  | nil => cases h
  | cons c0 cs =>
    simp only at h
    split at h
    · cases h
    rename_i hall
    split at h
    · cases h
    rename_i hn
    simp only [Except.ok.injEq] at h
    have hall' : ∀ c ∈ c0 :: cs, c.length = c0.length := by
      intro c hc
      have := hall
      simp only [Bool.not_eq_true', Bool.not_eq_false, List.all_eq_true, beq_iff_eq] at this
      exact (this c hc).symm
    refine ⟨c0.length, hall', ?_⟩
    have hmap : ∀ {α : Type} (x : α), (maxs.map fun _ => x) = (c0 :: cs).map fun _ => x := by
      intro α x
      rw [List.map_const', List.map_const', hl]
    have hinit : AggInv (c0 :: cs) maxs 0 ⟨maxs.map fun _ => [], maxs.map fun _ => 0⟩ [] [] := by
      refine ⟨rfl, hmap _, hmap _, ?_, by omega, by simp, by simp, ?_⟩
      · intro p hp hlen
        simp only [List.nil_append, List.mem_singleton] at hp
        subst hp; simp at hlen
      · intro j p q _ hq
        simp at hq
    obtain ⟨done, cur, inv⟩ := forRange_inv (n := c0.length)
      (init := (⟨maxs.map fun _ => [], maxs.map fun _ => 0⟩ : Agg))
      (f := fun di st => aggStep maxs ((c0 :: cs).map fun c => c.getD di 0) st)
      (fun k st => ∃ done cur, AggInv (c0 :: cs) maxs k st done cur) ⟨[], [], hinit⟩
      (fun i s _ ⟨d, c, hi⟩ => aggStep_inv hl hi)
    have hcur : cur ≠ [] := inv.cur_ne (by omega)
    refine ⟨done ++ [cur], inv.flat, ?_, inv.small, inv.greedy, ?_, ?_⟩
    · rw [← h, inv.chunks_eq, inv.counts_eq]
      apply List.ext_getElem?
      intro j
      rw [List.getElem?_zipWith, List.getElem?_map, List.getElem?_map, List.getElem?_map]
      cases (c0 :: cs)[j]? <;> simp
    · intro p hp
      cases done with
      | nil => simp at hp
      | cons d done =>
        rw [List.cons_append, List.tail_cons, List.mem_append, List.mem_singleton] at hp
        rcases hp with hp | rfl
        · exact inv.head_ne p hp
        · exact hcur
    · intro hx p hp
      rcases List.mem_append.1 hp with hp | hp
      · cases done with
        | nil => cases hp
        | cons d done =>
          rcases List.mem_cons.1 hp with rfl | hp
          · intro h0; exact hx (inv.first p rfl h0)
          · exact inv.head_ne p hp
      · rw [List.mem_singleton.1 hp]; exact hcur

theorem sum_groups (c : List Int) (parts : List (List Nat)) :
    (parts.map (groupSize c)).sum = groupSize c parts.flatten := by
  induction parts with
  | nil => rfl
  | cons p parts ih => rw [List.map_cons, List.sum_cons, ih]; simp [groupSize]

theorem groupSize_range (c : List Int) : groupSize c (List.range c.length) = c.sum := by
  unfold groupSize
  congr 1
  apply List.ext_getElem
  · simp
  · intro i h1 h2
    simp at h1
    simp [h1]

/-- **C52** Totals are preserved in each dimension, every dimension gets the same number of chunks, and no output chunk
exceeds its maximum when no input chunk does and maxima are not negative. -/
theorem C52_totals (chunks : List (List Int)) (maxs : List Int) (out : List (List Int))
    (h : aggregateSeq chunks maxs = .ok out) :
    out.length = chunks.length ∧
    (∀ (ci : Nat) (c o : List Int), chunks[ci]? = some c → out[ci]? = some o → o.sum = c.sum) ∧
    (∃ k, ∀ o ∈ out, o.length = k) ∧
    ((∀ (ci : Nat) (c : List Int) (m : Int), chunks[ci]? = some c → maxs[ci]? = some m → 0 ≤ m ∧ ∀ x ∈ c, x ≤ m) →
      ∀ (ci : Nat) (o : List Int) (m : Int), out[ci]? = some o → maxs[ci]? = some m → ∀ x ∈ o, x ≤ m) := by
  obtain ⟨n, hn, parts, hf, rfl, hs, _, _, _⟩ := C52_groups_partial chunks maxs out h
  refine ⟨by simp, ?_, ⟨parts.length, by simp⟩, ?_⟩
  · intro ci c o hc ho
    rw [List.getElem?_map, hc] at ho
    obtain rfl := Option.some.inj ho
    rw [sum_groups, hf, ← hn c (List.mem_of_getElem? hc), groupSize_range]
  · intro hb ci o m ho hm x hx
    rw [List.getElem?_map, Option.map_eq_some_iff] at ho
    obtain ⟨c, hc, rfl⟩ := ho
    obtain ⟨p, hp, rfl⟩ := List.mem_map.1 hx
    obtain ⟨h0, h1⟩ := hb ci c m hc hm
    rcases Nat.lt_or_ge p.length 2 with hlen | hlen
    · match p, hlen with
      | [], _ => simpa [groupSize] using h0
      | [i], _ =>
        have hi : i < n := by
          have : i ∈ parts.flatten := List.mem_flatten.2 ⟨[i], hp, by simp⟩
          rw [hf] at this
          exact List.mem_range.1 this
        have hic : i < c.length := by rw [hn c (List.mem_of_getElem? hc)]; exact hi
        have : c.getD i 0 ∈ c := by
          rw [List.getD_eq_getElem?_getD, List.getElem?_eq_getElem hic]; exact List.getElem_mem hic
        simpa [groupSize] using h1 _ this
    · by_contra hlt
      exact hs p hp hlen ⟨ci, c, m, hc, hm, by omega⟩

/-- **C52** Mismatched arguments raise `ValueError`: different numbers of dimensions and maxima, or dimensions with
different numbers of chunks. With matching arguments the call succeeds unless there is nothing to aggregate. -/
theorem C52_errors (chunks : List (List Int)) (maxs : List Int) :
    (chunks.length ≠ maxs.length → aggregateSeq chunks maxs = .error .valueError) ∧
    (chunks.length = maxs.length → (∃ c ∈ chunks, ∃ d ∈ chunks, c.length ≠ d.length) →
      aggregateSeq chunks maxs = .error .valueError) ∧
    (chunks.length = maxs.length → chunks ≠ [] → ∀ n, 0 < n → (∀ c ∈ chunks, c.length = n) →
      ∃ out, aggregateSeq chunks maxs = .ok out) := by
  refine ⟨?_, ?_, ?_⟩
  · intro h
    unfold aggregateSeq
    rw [if_pos h]
  · intro h ⟨c, hc, d, hd, hcd⟩
    unfold aggregateSeq
    rw [if_neg (by simpa using h)]
    cases chunks with
    | nil => cases hc
    | cons c0 cs =>
      simp only
      rw [if_pos]
      simp only [Bool.not_eq_true', List.all_eq_false, beq_iff_eq]
      by_cases h0 : c0.length = c.length
      · exact ⟨d, hd, fun h1 => hcd (h0.symm.trans h1)⟩
      · exact ⟨c, hc, h0⟩
  · intro h hne n hn hall
    unfold aggregateSeq
    rw [if_neg (by simpa using h)]
    cases chunks with
    | nil => exact absurd rfl hne
    | cons c0 cs =>
      simp only
      have h0 : c0.length = n := hall c0 (by simp)
      rw [if_neg, if_neg (by omega)]
      · exact ⟨_, rfl⟩
      · simp only [Bool.not_eq_true', Bool.not_eq_false, List.all_eq_true, beq_iff_eq]
        intro c hc
        rw [h0, hall c hc]

/-- **C52** The result has the form of the arguments: one tuple if there is one maximum, a sequence of tuples otherwise. -/
theorem C52_form (a : ChunkArgs) (out : List (List Int)) (h : aggregateSeq a.toSeq.1 a.toSeq.2 = .ok out) :
    (a.toSeq.2.length = 1 → ∃ o, out = [o] ∧ aggregateChunks a = .ok (.single o)) ∧
    (a.toSeq.2.length ≠ 1 → aggregateChunks a = .ok (.seq out)) := by
  have hlen : out.length = a.toSeq.2.length := by
    have h1 := (C52_totals _ _ _ h).1
    by_contra hne
    have h2 : a.toSeq.1.length ≠ a.toSeq.2.length := by omega
    rw [(C52_errors _ _).1 h2] at h
    cases h
  constructor
  · intro h1
    rw [h1] at hlen
    obtain ⟨o, rfl⟩ := List.length_eq_one_iff.1 hlen
    refine ⟨o, rfl, ?_⟩
    unfold aggregateChunks
    simp only [h, h1, if_true, List.headD_cons]
  · intro h1
    unfold aggregateChunks
    simp only [h, h1, if_false]

/-- Non-vacuity: the example of the documentation. -/
example : aggregateChunks (.seq [[3, 4, 6, 3, 6, 7], [1, 1, 1, 1, 1, 1]] [10, 3]) =
    .ok (.seq [[7, 9, 6, 7], [2, 2, 1, 1]]) := by decide +kernel

/-- **C52** is refuted: when the first chunk by itself exceeds the maximum there is an extra empty chunk in front, which is
not the total of any input chunks. -/
theorem C52_violated : aggregateChunks (.single [5, 2] 3) = .ok (.single [0, 5, 2]) := by decide +kernel

/-- **C52**: empty chunk tuples are not handled. -/
theorem C52_empty : aggregateChunks (.single [] 3) = .error .unboundLocalError := rfl

/-! ### C53 -/

/-- **C53** `corr_shape` succeeds exactly for `flat` and for `matrix` with 1, 2 or 4 correlations; all other arguments raise
`ValueError`. The dimensions multiply to the number of correlations; `flat` gives one dimension; `matrix` gives two exactly
for 4 correlations, both of size 2. -/
theorem C53_table (ncorr : Int) (shape : String) :
    ((∃ s, corrShape ncorr shape = .ok s) ↔ shape = "flat" ∨ shape = "matrix" ∧ ncorr ∈ [1, 2, 4]) ∧
    (∀ e, corrShape ncorr shape = .error e → e = .valueError) ∧
    (∀ s, corrShape ncorr shape = .ok s → s.prod = ncorr ∧ (shape = "flat" → s.length = 1) ∧
      (shape = "matrix" → (s.length = 2 ↔ ncorr = 4) ∧ (s.length = 1 ↔ ncorr ≠ 4) ∧ ∀ d ∈ s, d ≤ 2)) := by
  unfold corrShape
  by_cases h1 : shape = "flat"
  · subst h1
    simp
  · by_cases h2 : shape = "matrix"
    · subst h2
      by_cases a : ncorr = 1
      · subst a; simp
      · by_cases b : ncorr = 2
        · subst b; simp
        · by_cases c : ncorr = 4
          · subst c; simp
          · simp [a, b, c]
    · simp [h1, h2]

/-- **C53** The values. -/
theorem C53_values (ncorr : Int) : corrShape ncorr "flat" = .ok [ncorr] ∧ corrShape 1 "matrix" = .ok [1] ∧
    corrShape 2 "matrix" = .ok [2] ∧ corrShape 4 "matrix" = .ok [2, 2] := by
  refine ⟨rfl, ?_, ?_, ?_⟩ <;> decide +kernel

/-- Non-vacuity: both failures occur. -/
example : corrShape 3 "matrix" = .error .valueError ∧ corrShape 2 "diag" = .error .valueError := by decide +kernel

/-! ### C54 -/

theorem lookup_of_mem {κ υ : Type} [DecidableEq κ] {d : List (κ × υ)} (hd : (d.map Prod.fst).Nodup) (k : κ) (v : υ) :
    d.lookup k = some v ↔ (k, v) ∈ d := by
  induction d with
  | nil => simp
  | cons p d ih =>
    obtain ⟨a, b⟩ := p
    rw [List.map_cons, List.nodup_cons] at hd
    rw [List.lookup_cons]
    by_cases h : k = a
    · subst h
      simp only [BEq.rfl, Option.some.injEq, List.mem_cons, Prod.mk.injEq, true_and]
      constructor
      · intro e; exact Or.inl e.symm
      · rintro (e | e)
        · exact e.symm
        · exact absurd (List.mem_map.2 ⟨(k, v), e, rfl⟩) hd.1
    · have : (k == a) = false := by simpa using h
      rw [this, ih hd.2]
      simp [h]

/-- **C54** The two maps are inverse to each other, `STOKES_TYPE_MAP` is defined exactly on the listed types and gives their
positions, which are the numbers 0 to 32. -/
theorem C54_inverse (s : String) (i : Nat) :
    (stokesTypeMap.lookup s = some i ↔ stokesIdMap.lookup i = some s) ∧
    (stokesTypeMap.lookup s = some i ↔ stokesTypes[i]? = some s) ∧
    ((∃ t, stokesIdMap.lookup i = some t) ↔ i < 33) := by
  have e1 : stokesTypeMap = stokesTypes.zipIdx := by decide +kernel
  have e2 : stokesIdMap = stokesTypes.zipIdx.map fun p => (p.2, p.1) := by decide +kernel
  have n1 : (stokesTypeMap.map Prod.fst).Nodup := by decide +kernel
  have n2 : (stokesIdMap.map Prod.fst).Nodup := by decide +kernel
  have h1 : stokesTypeMap.lookup s = some i ↔ stokesTypes[i]? = some s := by
    rw [lookup_of_mem n1, e1, List.mk_mem_zipIdx_iff_getElem?]
  have h2 : ∀ t, stokesIdMap.lookup i = some t ↔ stokesTypes[i]? = some t := by
    intro t
    rw [lookup_of_mem n2, e2, ← List.mk_mem_zipIdx_iff_getElem?]
    constructor
    · intro h
      obtain ⟨⟨a, b⟩, h', e⟩ := List.mem_map.1 h
      simp only [Prod.mk.injEq] at e
      obtain ⟨rfl, rfl⟩ := e
      exact h'
    · intro h
      exact List.mem_map.2 ⟨(t, i), h, rfl⟩
  refine ⟨h1.trans (h2 s).symm, h1, ?_⟩
  constructor
  · rintro ⟨t, ht⟩
    exact (List.getElem?_eq_some_iff.1 ((h2 t).1 ht)).1
  · intro hi
    exact ⟨stokesTypes[i]'hi, (h2 _).2 (List.getElem?_eq_getElem hi)⟩

/-- **C54** This is the table used by the coherency conversion. -/
theorem C54_coherency : ModelData.stokesTypes = stokesTypes := by decide +kernel

/-- Non-vacuity: circular and linear correlations have the numbers of the Measurement Set definition. -/
example : stokesTypeMap.lookup "RR" = some 5 ∧ stokesTypeMap.lookup "XX" = some 9 ∧ stokesTypeMap.lookup "YY" = some 12 := by
  decide +kernel

/-! ### C62 -/

/-- **C62** For sizes that are not negative and positive blocks the grid is the smallest one covering the data: in each
dimension, every element lies in exactly one block of the grid at one position of the block, and one block fewer would not
be enough. -/
theorem C62_cover (dims blocks g : List Int) (h : grids dims blocks = .ok g) (hd : ∀ d ∈ dims, 0 ≤ d)
    (hb : ∀ b ∈ blocks, 0 < b) :
    g.length = 3 ∧ ∀ (k : Nat) (d b n : Int), dims[k]? = some d → blocks[k]? = some b → g[k]? = some n →
      0 ≤ n ∧ d ≤ n * b ∧ (0 < n → (n - 1) * b < d) ∧
      ∀ e, 0 ≤ e → e < d → ∃ i t, 0 ≤ i ∧ i < n ∧ 0 ≤ t ∧ t < b ∧ e = i * b + t ∧
        ∀ i' t', 0 ≤ t' → t' < b → e = i' * b + t' → i' = i ∧ t' = t := by
  unfold grids at h
  split at h
  · cases h
  rename_i h1
  split at h
  · cases h
  rename_i h2
  split at h
  · cases h
  simp only [Except.ok.injEq] at h
  push Not at h1 h2
  subst h
  refine ⟨by simp [h1, h2], ?_⟩
  intro k d b n hk1 hk2 hk3
  rw [List.getElem?_zipWith, hk1, hk2] at hk3
  simp only [Option.some.injEq] at hk3
  have hd' := hd d (List.mem_of_getElem? hk1)
  have hb' := hb b (List.mem_of_getElem? hk2)
  rw [Int.fdiv_eq_ediv_of_nonneg _ (le_of_lt hb')] at hk3
  have hm1 := Int.emod_nonneg (d + b - 1) (ne_of_gt hb')
  have hm2 := Int.emod_lt_of_pos (d + b - 1) hb'
  have hdiv := Int.mul_ediv_add_emod (d + b - 1) b
  rw [hk3] at hdiv
  have hn : 0 ≤ n := by rw [← hk3]; exact Int.ediv_nonneg (by omega) (le_of_lt hb')
  refine ⟨hn, by nlinarith, fun _ => by nlinarith, ?_⟩
  intro e he1 he2
  have h3 := Int.emod_nonneg e (ne_of_gt hb')
  have h4 := Int.emod_lt_of_pos e hb'
  have h5 := Int.mul_ediv_add_emod e b
  refine ⟨e / b, e % b, Int.ediv_nonneg he1 (le_of_lt hb'), ?_, h3, h4, by linarith, ?_⟩
  · by_contra hge
    push Not at hge
    nlinarith
  · intro i' t' ht1 ht2 he
    have : i' = e / b := by
      have hq : e / b = i' := by
        rw [he, add_comm, Int.add_mul_ediv_right _ _ (ne_of_gt hb'), Int.ediv_eq_zero_of_lt ht1 ht2, zero_add]
      exact hq.symm
    refine ⟨this, ?_⟩
    rw [← this] at h5
    linarith

/-- **C62** Arguments that are not triples raise `ValueError`, a zero block `ZeroDivisionError`, anything else succeeds. -/
theorem C62_errors (dims blocks : List Int) :
    (dims.length ≠ 3 ∨ blocks.length ≠ 3 → grids dims blocks = .error .valueError) ∧
    (dims.length = 3 → blocks.length = 3 → 0 ∈ blocks → grids dims blocks = .error .zeroDivisionError) ∧
    (dims.length = 3 → blocks.length = 3 → 0 ∉ blocks → ∃ g, grids dims blocks = .ok g) := by
  unfold grids
  refine ⟨?_, ?_, ?_⟩
  · rintro (h | h)
    · rw [if_pos h]
    · split
      · rfl
      · rfl
  · intro h1 h2 h3
    simp [h1, h2, h3]
  · intro h1 h2 h3
    simp [h1, h2, h3]

/-- Non-vacuity. -/
example : grids [10, 1, 32] [4, 8, 32] = .ok [3, 1, 1] := by decide +kernel

end Verif.Util
