/-
Lemmas about the breadth-first traversal of schemas.
-/
import Verif.ModelData.CoherencySpec
import Mathlib.Data.List.Induction

set_option autoImplicit false

namespace Verif.ModelData

theorem listAt_snoc (l : List Schema) (p : List Nat) (i : Nat) :
    listAt l (p ++ [i]) = (listAt l p).bind fun cur => match cur[i]? with
      | some (.list l') => some l'
      | _ => none := by
  induction p generalizing l with
  | nil =>
    simp only [List.nil_append, listAt, Option.bind_some]
    all_goals cases l[i]? with
      | none => rfl
      | some e => cases e <;> rfl
  | cons j p ih =>
    simp only [List.cons_append, listAt]
    cases h : l[j]? with
    | none => rfl
    | some e =>
      cases e with
      | list l' => exact ih l'
      | _ => rfl

theorem listAt_snoc_some {l : List Schema} {p : List Nat} {i : Nat} {c : List Schema}
    (h : listAt l (p ++ [i]) = some c) : ∃ cur, listAt l p = some cur ∧ cur[i]? = some (.list c) := by
  rw [listAt_snoc] at h
  cases hp : listAt l p with
  | none => rw [hp] at h; cases h
  | some cur =>
    rw [hp] at h
    simp only [Option.bind_some] at h
    refine ⟨cur, rfl, ?_⟩
    cases hc : cur[i]? with
    | none => rw [hc] at h; cases h
    | some e =>
      rw [hc] at h
      cases e with
      | list l' => simp only [Option.some.injEq] at h; rw [h]
      | _ => cases h

theorem listAt_snoc_of {l : List Schema} {p : List Nat} {i : Nat} {c cur : List Schema}
    (hp : listAt l p = some cur) (hc : cur[i]? = some (.list c)) : listAt l (p ++ [i]) = some c := by
  rw [listAt_snoc, hp]
  simp only [Option.bind_some, hc]

theorem name_not_list {e : Schema} {s : String} (h : e.name = .ok s) : ∀ l, e ≠ .list l := by
  rintro l rfl; cases h

/-- What the loop over one list's elements does. -/
structure ScanPost (idx : List Nat) (rest : List Schema) (i : Nat) (queue queue' : List QItem)
    (result result' : List (String × List Nat)) : Prop where
  q_old : ∀ it ∈ queue, it ∈ queue'
  q_new : ∀ it ∈ queue', it ∈ queue ∨ ∃ k l, rest[k]? = some (.list l) ∧ it = (l, idx ++ [i + k])
  q_all : ∀ k l, rest[k]? = some (.list l) → (l, idx ++ [i + k]) ∈ queue'
  r_old : ∀ x ∈ result, x ∈ result'
  r_new : ∀ x ∈ result', x ∈ result ∨ ∃ k e, rest[k]? = some e ∧ e.name = .ok x.1 ∧ x.2 = idx ++ [i + k]
  r_all : ∀ k e, rest[k]? = some e → (∃ l, e = .list l) ∨ ∃ s, e.name = .ok s ∧ (s, idx ++ [i + k]) ∈ result'
  nodup : (result.map Prod.fst).Nodup → (result'.map Prod.fst).Nodup
  meas : (queue'.map fun it => 1 + nodesList it.1).sum =
    (queue.map fun it => 1 + nodesList it.1).sum + nodesList rest

theorem scan_ok {idx : List Nat} {rest : List Schema} {i : Nat} {queue queue' : List QItem}
    {result result' : List (String × List Nat)}
    (h : scan idx rest i queue result = .ok (queue', result')) :
    ScanPost idx rest i queue queue' result result' := by
  induction rest generalizing i queue result with
  | nil =>
    simp only [scan, Except.ok.injEq, Prod.mk.injEq] at h
    obtain ⟨rfl, rfl⟩ := h
    exact ⟨fun _ h => h, fun _ h => Or.inl h, by simp, fun _ h => h, fun _ h => Or.inl h, by simp, id, by simp [nodesList]⟩
  | cons e rest ih =>
    have leaf : ∀ s, e.name = .ok s →
        (if (result.map Prod.fst).contains s then .error .valueError
          else scan idx rest (i + 1) queue (result ++ [(s, idx ++ [i])])) = .ok (queue', result') →
        ScanPost idx (e :: rest) i queue queue' result result' := by
      intro s hs h
      have hnl := name_not_list hs
      by_cases hc : (result.map Prod.fst).contains s = true
      · rw [if_pos hc] at h; cases h
      · rw [if_neg hc] at h
        obtain ⟨p1, p2, p3, p4, p5, p6, p7, p8⟩ := ih h
        refine ⟨p1, ?_, ?_, fun x hx => p4 x (List.mem_append_left _ hx), ?_, ?_, ?_, ?_⟩
        · intro it hit
          rcases p2 it hit with h' | ⟨k, l, hk, rfl⟩
          · exact Or.inl h'
          · exact Or.inr ⟨k + 1, l, by simpa using hk, by rw [show i + (k + 1) = i + 1 + k by omega]⟩
        · intro k l hk
          cases k with
          | zero => simp only [List.getElem?_cons_zero, Option.some.injEq] at hk; exact absurd hk (hnl l)
          | succ k =>
            have := p3 k l (by simpa using hk)
            rwa [show i + 1 + k = i + (k + 1) by omega] at this
        · intro x hx
          rcases p5 x hx with h' | ⟨k, e', hk, hn, hx2⟩
          · rcases List.mem_append.1 h' with h'' | h''
            · exact Or.inl h''
            · obtain rfl := List.mem_singleton.1 h''
              exact Or.inr ⟨0, e, by simp, hs, by simp⟩
          · exact Or.inr ⟨k + 1, e', by simpa using hk, hn, by rw [hx2, show i + (k + 1) = i + 1 + k by omega]⟩
        · intro k e' hk
          cases k with
          | zero =>
            simp only [List.getElem?_cons_zero, Option.some.injEq] at hk
            subst hk
            exact Or.inr ⟨s, hs, p4 _ (List.mem_append_right _ (by simp))⟩
          | succ k =>
            rcases p6 k e' (by simpa using hk) with h' | ⟨s', h1, h2⟩
            · exact Or.inl h'
            · exact Or.inr ⟨s', h1, by rwa [show i + 1 + k = i + (k + 1) by omega] at h2⟩
        · intro hnd
          apply p7
          rw [List.map_append, List.nodup_append]
          refine ⟨hnd, by simp, ?_⟩
          intro a ha b hb
          simp only [List.map_cons, List.map_nil, List.mem_singleton] at hb
          subst hb
          rintro rfl
          exact hc (by simpa using ha)
        · rw [p8]
          have : e.nodes = 0 := by cases e <;> first | rfl | exact absurd rfl (hnl _)
          simp [nodesList, this]
    cases e with
    | list l =>
      simp only [scan] at h
      obtain ⟨p1, p2, p3, p4, p5, p6, p7, p8⟩ := ih h
      refine ⟨fun it hit => p1 it (List.mem_append_left _ hit), ?_, ?_, p4, ?_, ?_, p7, ?_⟩
      · intro it hit
        rcases p2 it hit with h' | ⟨k, l', hk, rfl⟩
        · rcases List.mem_append.1 h' with h'' | h''
          · exact Or.inl h''
          · obtain rfl := List.mem_singleton.1 h''
            exact Or.inr ⟨0, l, by simp, by simp⟩
        · exact Or.inr ⟨k + 1, l', by simpa using hk, by rw [show i + (k + 1) = i + 1 + k by omega]⟩
      · intro k l' hk
        cases k with
        | zero =>
          simp only [List.getElem?_cons_zero, Option.some.injEq, Schema.list.injEq] at hk
          subst hk
          exact p1 _ (List.mem_append_right _ (by simp))
        | succ k =>
          have := p3 k l' (by simpa using hk)
          rwa [show i + 1 + k = i + (k + 1) by omega] at this
      · intro x hx
        rcases p5 x hx with h' | ⟨k, e', hk, hn, hx2⟩
        · exact Or.inl h'
        · exact Or.inr ⟨k + 1, e', by simpa using hk, hn, by rw [hx2, show i + (k + 1) = i + 1 + k by omega]⟩
      · intro k e' hk
        cases k with
        | zero =>
          simp only [List.getElem?_cons_zero, Option.some.injEq] at hk
          exact Or.inl ⟨l, hk.symm⟩
        | succ k =>
          rcases p6 k e' (by simpa using hk) with h' | ⟨s', h1, h2⟩
          · exact Or.inl h'
          · exact Or.inr ⟨s', h1, by rwa [show i + 1 + k = i + (k + 1) by omega] at h2⟩
      · rw [p8]
        simp only [List.map_append, List.sum_append, List.map_cons, List.map_nil, List.sum_cons, List.sum_nil,
          nodesList, Schema.nodes]
        omega
    | str s => simp only [scan] at h; exact leaf s rfl h
    | num n =>
      simp only [scan] at h
      cases hn : (Schema.num n).name with
      | error err => rw [hn] at h; cases h
      | ok s => rw [hn] at h; exact leaf s hn h
    | other => simp only [scan] at h; cases h

/-- Why the loop over one list's elements fails. -/
theorem scan_error {idx : List Nat} {rest : List Schema} {i : Nat} {queue : List QItem}
    {result : List (String × List Nat)} {err : PyErr}
    (h : scan idx rest i queue result = .error err) :
    (∃ (k : Nat) (e : Schema), rest[k]? = some e ∧ (∀ l, e ≠ .list l) ∧ e.name = .error err) ∨
    (err = .valueError ∧ ∃ (k : Nat) (e : Schema) (s : String), rest[k]? = some e ∧ e.name = .ok s ∧
      (s ∈ result.map Prod.fst ∨ ∃ k' < k, ∃ e' : Schema, rest[k']? = some e' ∧ e'.name = .ok s)) := by
  induction rest generalizing i queue result with
  | nil => cases h
  | cons e rest ih =>
    have leaf : ∀ s, e.name = .ok s →
        (if (result.map Prod.fst).contains s then .error .valueError
          else scan idx rest (i + 1) queue (result ++ [(s, idx ++ [i])])) = .error err →
        (∃ (k : Nat) (e' : Schema), (e :: rest)[k]? = some e' ∧ (∀ l, e' ≠ .list l) ∧ e'.name = .error err) ∨
        (err = .valueError ∧ ∃ (k : Nat) (e' : Schema) (s : String), (e :: rest)[k]? = some e' ∧ e'.name = .ok s ∧
          (s ∈ result.map Prod.fst ∨ ∃ k' < k, ∃ e'' : Schema, (e :: rest)[k']? = some e'' ∧ e''.name = .ok s)) := by
      intro s hs h
      by_cases hc : (result.map Prod.fst).contains s = true
      · rw [if_pos hc] at h
        obtain rfl := (Except.error.inj h).symm
        exact Or.inr ⟨rfl, 0, e, s, by simp, hs, Or.inl (by simpa using hc)⟩
      · rw [if_neg hc] at h
        rcases ih h with ⟨k, e', h1, h2, h3⟩ | ⟨h0, k, e', s', h1, h2, h3⟩
        · exact Or.inl ⟨k + 1, e', by simpa using h1, h2, h3⟩
        · refine Or.inr ⟨h0, k + 1, e', s', by simpa using h1, h2, ?_⟩
          rcases h3 with h3 | ⟨k', hk', e'', h4, h5⟩
          · rw [List.map_append, List.mem_append] at h3
            rcases h3 with h3 | h3
            · exact Or.inl h3
            · simp only [List.map_cons, List.map_nil, List.mem_singleton] at h3
              subst h3
              exact Or.inr ⟨0, by omega, e, by simp, hs⟩
          · exact Or.inr ⟨k' + 1, by omega, e'', by simpa using h4, h5⟩
    cases e with
    | list l =>
      simp only [scan] at h
      rcases ih h with ⟨k, e', h1, h2, h3⟩ | ⟨h0, k, e', s, h1, h2, h3⟩
      · exact Or.inl ⟨k + 1, e', by simpa using h1, h2, h3⟩
      · refine Or.inr ⟨h0, k + 1, e', s, by simpa using h1, h2, ?_⟩
        rcases h3 with h3 | ⟨k', hk', e'', h4, h5⟩
        · exact Or.inl h3
        · exact Or.inr ⟨k' + 1, by omega, e'', by simpa using h4, h5⟩
    | str s => simp only [scan] at h; exact leaf s rfl h
    | num n =>
      simp only [scan] at h
      cases hn : (Schema.num n).name with
      | error e' =>
        rw [hn] at h
        obtain rfl := (Except.error.inj h).symm
        exact Or.inl ⟨0, _, by simp, by simp, hn⟩
      | ok s => rw [hn] at h; exact leaf s hn h
    | other =>
      have h' : (Except.error PyErr.typeError : Except PyErr (List QItem × List (String × List Nat))) = .error err := h
      obtain rfl := (Except.error.inj h').symm
      exact Or.inl ⟨0, Schema.other, rfl, fun l hl => (nomatch hl), rfl⟩

/-- Invariant of the traversal. -/
structure BfsInv (data : List Schema) (queue : List QItem) (shape : List Nat)
    (result : List (String × List Nat)) : Prop where
  q_at : ∀ it ∈ queue, listAt data it.2 = some it.1
  q_len : ∀ it ∈ queue, it.2.length ≤ shape.length
  nodup : (result.map Prod.fst).Nodup
  sound : ∀ x ∈ result, ∃ e, LeafAt data x.2 e ∧ e.name = .ok x.1
  lens : ∀ p cur, listAt data p = some cur →
    shape[p.length]? = some cur.length ∨ ∃ it ∈ queue, it.2 <+: p
  compl : ∀ p e, LeafAt data p e → (∃ s, e.name = .ok s ∧ (s, p) ∈ result) ∨ ∃ it ∈ queue, it.2 <+: p
  wit : ∀ (k n : Nat), shape[k]? = some n → ∃ p cur, p.length = k ∧ listAt data p = some cur ∧ cur.length = n

theorem growShape_ok {shape shape' : List Nat} {depth len : Nat} (hd : depth ≤ shape.length)
    (h : growShape shape depth len = .ok shape') :
    shape'[depth]? = some len ∧ (∀ (k n : Nat), shape[k]? = some n → shape'[k]? = some n) ∧
      depth + 1 ≤ shape'.length ∧ shape.length ≤ shape'.length ∧
      (∀ (k n : Nat), shape'[k]? = some n → shape[k]? = some n ∨ (k = depth ∧ n = len)) := by
  unfold growShape at h
  cases hs : shape[depth]? with
  | none =>
    rw [hs] at h
    simp only [Except.ok.injEq] at h
    subst h
    have hl : shape.length ≤ depth := List.getElem?_eq_none_iff.1 hs
    have : depth = shape.length := by omega
    subst this
    refine ⟨by simp, ?_, by simp, by simp, ?_⟩
    · intro k n hk
      have : k < shape.length := (List.getElem?_eq_some_iff.1 hk).1
      rw [List.getElem?_append_left this]; exact hk
    · intro k n hk
      by_cases hkl : k < shape.length
      · rw [List.getElem?_append_left hkl] at hk; exact Or.inl hk
      · rw [List.getElem?_append_right (by omega)] at hk
        by_cases h0 : k - shape.length = 0
        · rw [h0] at hk
          simp only [List.getElem?_cons_zero, Option.some.injEq] at hk
          exact Or.inr ⟨by omega, hk.symm⟩
        · obtain ⟨j, hj⟩ : ∃ j, k - shape.length = j + 1 := ⟨k - shape.length - 1, by omega⟩
          rw [hj] at hk; simp at hk
  | some n =>
    rw [hs] at h
    by_cases hn : n = len
    · simp only [hn, ne_eq, not_true_eq_false, if_false, Except.ok.injEq] at h
      subst h
      have hl := (List.getElem?_eq_some_iff.1 hs).1
      exact ⟨by rw [hs, hn], fun k n h => h, by omega, le_refl _, fun k n h => Or.inl h⟩
    · simp only [ne_eq, hn, not_false_eq_true, if_true] at h; cases h

theorem prefix_cases {q p : List Nat} (h : q <+: p) : p = q ∨ ∃ i, q ++ [i] <+: p := by
  obtain ⟨t, rfl⟩ := h
  cases t with
  | nil => exact Or.inl (by simp)
  | cons i t => exact Or.inr ⟨i, t, by simp⟩

theorem listAt_prefix {l : List Schema} {q p : List Nat} {c : List Schema} (h : q <+: p)
    (hp : listAt l p = some c) : ∃ d, listAt l q = some d := by
  obtain ⟨t, rfl⟩ := h
  induction t using List.reverseRecOn generalizing c with
  | nil => exact ⟨c, by simpa using hp⟩
  | append_singleton t i ih =>
    rw [← List.append_assoc] at hp
    obtain ⟨cur, h1, _⟩ := listAt_snoc_some hp
    exact ih h1

theorem inv_step {data : List Schema} {cur : List Schema} {idx : List Nat} {queue queue' : List QItem}
    {shape shape' : List Nat} {result result' : List (String × List Nat)}
    (inv : BfsInv data ((cur, idx) :: queue) shape result)
    (hg : growShape shape idx.length cur.length = .ok shape')
    (hs : scan idx cur 0 queue result = .ok (queue', result')) : BfsInv data queue' shape' result' := by
  obtain ⟨i1, i2, i3, i4, i5, i6, i7⟩ := inv
  have hat : listAt data idx = some cur := i1 (cur, idx) (by simp)
  obtain ⟨g1, g2, g3, g4, g5⟩ := growShape_ok (i2 (cur, idx) (by simp)) hg
  obtain ⟨s1, s2, s3, s4, s5, s6, s7, s8⟩ := scan_ok hs
  simp only [Nat.zero_add] at s2 s3 s5 s6
  refine ⟨?_, ?_, s7 i3, ?_, ?_, ?_, ?_⟩
  · intro it hit
    rcases s2 it hit with h | ⟨k, l, hk, rfl⟩
    · exact i1 it (List.mem_cons_of_mem _ h)
    · exact listAt_snoc_of hat hk
  · intro it hit
    rcases s2 it hit with h | ⟨k, l, hk, rfl⟩
    · exact le_trans (i2 it (List.mem_cons_of_mem _ h)) g4
    · simpa using g3
  · intro x hx
    rcases s5 x hx with h | ⟨k, e, hk, hn, hx2⟩
    · exact i4 x h
    · exact ⟨e, ⟨name_not_list hn, idx, k, cur, hx2, hat, hk⟩, hn⟩
  · intro p c hp
    rcases i5 p c hp with h | ⟨it, hit, hpre⟩
    · exact Or.inl (g2 _ _ h)
    · rcases List.mem_cons.1 hit with rfl | hit
      · rcases prefix_cases hpre with rfl | ⟨i, hi⟩
        · rw [hat] at hp; cases hp
          exact Or.inl g1
        · obtain ⟨d, hd⟩ := listAt_prefix hi hp
          obtain ⟨cur', h1, h2⟩ := listAt_snoc_some hd
          have : cur' = cur := Option.some.inj (h1.symm.trans hat)
          subst this
          exact Or.inr ⟨_, s3 i d h2, hi⟩
      · exact Or.inr ⟨it, s1 it hit, hpre⟩
  · intro p e he
    rcases i6 p e he with ⟨s, h1, h2⟩ | ⟨it, hit, hpre⟩
    · exact Or.inl ⟨s, h1, s4 _ h2⟩
    · rcases List.mem_cons.1 hit with rfl | hit
      · obtain ⟨hnl, q, i, c, hp, hq, hc⟩ := he
        subst hp
        -- `idx` is a prefix of `q ++ [i]`
        have hq' : idx <+: q := by
          rcases List.prefix_concat_iff.1 hpre with h | h
          · exfalso
            simp only at h
            rw [h] at hat
            obtain ⟨cur', h1, h2⟩ := listAt_snoc_some hat
            have : cur' = c := Option.some.inj (h1.symm.trans hq)
            subst this
            rw [hc] at h2
            exact hnl _ (Option.some.inj h2)
          · exact h
        rcases prefix_cases hq' with rfl | ⟨j, hj⟩
        · have : c = cur := Option.some.inj (hq.symm.trans hat)
          subst this
          rcases s6 i e hc with ⟨l, hl⟩ | ⟨s, h1, h2⟩
          · exact absurd hl (hnl l)
          · exact Or.inl ⟨s, h1, h2⟩
        · obtain ⟨d, hd⟩ := listAt_prefix hj hq
          obtain ⟨cur', h1, h2⟩ := listAt_snoc_some hd
          have : cur' = cur := Option.some.inj (h1.symm.trans hat)
          subst this
          exact Or.inr ⟨_, s3 j d h2, hj.trans (List.prefix_append _ _)⟩
      · exact Or.inr ⟨it, s1 it hit, hpre⟩
  · intro k n hk
    rcases g5 k n hk with h | ⟨rfl, rfl⟩
    · exact i7 k n h
    · exact ⟨idx, cur, rfl, hat, rfl⟩

/-- What a successful traversal establishes. -/
theorem bfs_ok {data : List Schema} {fuel : Nat} {queue : List QItem} {shape : List Nat}
    {result : List (String × List Nat)} {out : List (String × List Nat) × List Nat}
    (inv : BfsInv data queue shape result) (h : bfs fuel queue shape result = .ok out) :
    BfsInv data [] out.2 out.1 := by
  induction fuel generalizing queue shape result with
  | zero =>
    cases queue with
    | nil => simp only [bfs, Except.ok.injEq] at h; subst h; exact inv
    | cons a q => simp only [bfs] at h; cases h
  | succ fuel ih =>
    cases queue with
    | nil => simp only [bfs, Except.ok.injEq] at h; subst h; exact inv
    | cons a q =>
      obtain ⟨cur, idx⟩ := a
      simp only [bfs] at h
      cases hg : growShape shape idx.length cur.length with
      | error e => rw [hg] at h; cases h
      | ok shape' =>
        rw [hg] at h
        simp only at h
        cases hs : scan idx cur 0 q result with
        | error e => rw [hs] at h; cases h
        | ok r => rw [hs] at h; exact ih (inv_step inv hg hs) h

theorem growShape_error {shape : List Nat} {depth len : Nat} {err : PyErr}
    (h : growShape shape depth len = .error err) :
    err = .dimensionMismatch ∧ ∃ n, shape[depth]? = some n ∧ n ≠ len := by
  unfold growShape at h
  cases hs : shape[depth]? with
  | none => rw [hs] at h; cases h
  | some n =>
    rw [hs] at h
    by_cases hn : n = len
    · simp [hn] at h
    · simp only [ne_eq, hn, not_false_eq_true, if_true, Except.error.injEq] at h
      exact ⟨h.symm, n, rfl, hn⟩

theorem scan_queue {idx : List Nat} {rest : List Schema} {i : Nat} {queue queue' : List QItem}
    {result result' : List (String × List Nat)}
    (h : scan idx rest i queue result = .ok (queue', result')) :
    ∃ items : List QItem, queue' = queue ++ items ∧ items.Pairwise (fun a b => a.2 ≠ b.2) ∧
      ∀ it ∈ items, ∃ (k : Nat) (l : List Schema), rest[k]? = some (.list l) ∧ it = (l, idx ++ [i + k]) := by
  induction rest generalizing i queue result with
  | nil =>
    simp only [scan, Except.ok.injEq, Prod.mk.injEq] at h
    exact ⟨[], by simp [h.1], List.Pairwise.nil, by simp⟩
  | cons e rest ih =>
    have leaf : ∀ q r, scan idx rest (i + 1) q r = .ok (queue', result') →
        ∃ items : List QItem, queue' = q ++ items ∧ items.Pairwise (fun a b => a.2 ≠ b.2) ∧
        ∀ it ∈ items, ∃ (k : Nat) (l : List Schema), (e :: rest)[k + 1]? = some (.list l) ∧
          it = (l, idx ++ [i + (k + 1)]) := by
      intro q r h
      obtain ⟨items, h1, h2, h3⟩ := ih h
      refine ⟨items, h1, h2, fun it hit => ?_⟩
      obtain ⟨k, l, hk, rfl⟩ := h3 it hit
      exact ⟨k, l, by simpa using hk, by rw [show i + (k + 1) = i + 1 + k by omega]⟩
    have fin : ∀ r, scan idx rest (i + 1) queue r = .ok (queue', result') →
        ∃ items : List QItem, queue' = queue ++ items ∧ items.Pairwise (fun a b => a.2 ≠ b.2) ∧
        ∀ it ∈ items, ∃ (k : Nat) (l : List Schema), (e :: rest)[k]? = some (.list l) ∧
          it = (l, idx ++ [i + k]) := by
      intro r h
      obtain ⟨items, h1, h2, h3⟩ := leaf _ _ h
      exact ⟨items, h1, h2, fun it hit => by obtain ⟨k, l, h4, h5⟩ := h3 it hit; exact ⟨k + 1, l, h4, h5⟩⟩
    cases e with
    | list l =>
      simp only [scan] at h
      obtain ⟨items, h1, h2, h3⟩ := leaf _ _ h
      refine ⟨(l, idx ++ [i]) :: items, by simp [h1], List.pairwise_cons.2 ⟨?_, h2⟩, ?_⟩
      · intro it hit
        obtain ⟨k, l', _, rfl⟩ := h3 it hit
        simp
      · intro it hit
        rcases List.mem_cons.1 hit with rfl | hit
        · exact ⟨0, l, by simp, by simp⟩
        · obtain ⟨k, l', h4, h5⟩ := h3 it hit
          exact ⟨k + 1, l', h4, h5⟩
    | str s =>
      simp only [scan, Schema.name] at h
      by_cases hc : (result.map Prod.fst).contains s = true
      · rw [if_pos hc] at h; cases h
      · rw [if_neg hc] at h; exact fin _ h
    | num n =>
      simp only [scan] at h
      cases hn : (Schema.num n).name with
      | error err => rw [hn] at h; cases h
      | ok s =>
        rw [hn] at h
        simp only at h
        by_cases hc : (result.map Prod.fst).contains s = true
        · rw [if_pos hc] at h; cases h
        · rw [if_neg hc] at h; exact fin _ h
    | other => simp only [scan] at h; cases h

/-- Queued lists are disjoint from each other and from what has been recorded. -/
structure BfsDisj (queue : List QItem) (result : List (String × List Nat)) : Prop where
  qr : ∀ it ∈ queue, ∀ x ∈ result, ¬ it.2 <+: x.2
  qq : queue.Pairwise fun a b => ¬ a.2 <+: b.2 ∧ ¬ b.2 <+: a.2

theorem snoc_prefix_left {q p : List Nat} {i : Nat} (h : q ++ [i] <+: p) : q <+: p :=
  (List.prefix_append q [i]).trans h

theorem disj_step {cur : List Schema} {idx : List Nat} {queue queue' : List QItem}
    {result result' : List (String × List Nat)} (d : BfsDisj ((cur, idx) :: queue) result)
    (hs : scan idx cur 0 queue result = .ok (queue', result')) : BfsDisj queue' result' := by
  obtain ⟨d1, d2⟩ := d
  obtain ⟨d3, d4⟩ := List.pairwise_cons.1 d2
  obtain ⟨items, rfl, h2, h3⟩ := scan_queue hs
  have h5 := (scan_ok hs).r_new
  simp only [Nat.zero_add] at h3 h5
  constructor
  · intro it hit x hx hpre
    rcases h5 x hx with hx | ⟨k, e, hk, hn, hx2⟩
    · rcases List.mem_append.1 hit with hit | hit
      · exact d1 it (List.mem_cons_of_mem _ hit) x hx hpre
      · obtain ⟨j, l, hj, rfl⟩ := h3 it hit
        exact d1 (cur, idx) (by simp) x hx (snoc_prefix_left hpre)
    · rw [hx2] at hpre
      rcases List.mem_append.1 hit with hit | hit
      · rcases List.prefix_concat_iff.1 hpre with h | h
        · exact (d3 it hit).1 (by rw [h]; exact List.prefix_append _ _)
        · exact (d3 it hit).2 h
      · obtain ⟨j, l, hj, rfl⟩ := h3 it hit
        have := hpre.eq_of_length (by simp)
        have : j = k := by simpa using this
        subst this
        rw [hj] at hk
        exact name_not_list hn l (Option.some.inj hk).symm
  · rw [List.pairwise_append]
    refine ⟨d4, ?_, ?_⟩
    · refine List.Pairwise.imp_of_mem ?_ h2
      intro a b ha hb hab
      obtain ⟨j, l, hj, rfl⟩ := h3 a ha
      obtain ⟨k, l', hk, rfl⟩ := h3 b hb
      constructor
      · intro h; exact hab (h.eq_of_length (by simp))
      · intro h; exact hab (h.eq_of_length (by simp)).symm
    · intro a ha b hb
      obtain ⟨k, l', hk, rfl⟩ := h3 b hb
      constructor
      · intro h
        rcases List.prefix_concat_iff.1 h with h | h
        · exact (d3 a ha).1 (by rw [h]; exact List.prefix_append _ _)
        · exact (d3 a ha).2 h
      · intro h
        exact (d3 a ha).1 (snoc_prefix_left h)

theorem bfs_error {data : List Schema} {fuel : Nat} {queue : List QItem} {shape : List Nat}
    {result : List (String × List Nat)} {err : PyErr}
    (inv : BfsInv data queue shape result)
    (hf : (queue.map fun it => 1 + nodesList it.1).sum ≤ fuel)
    (disj : BfsDisj queue result)
    (h : bfs fuel queue shape result = .error err) :
    (err = .dimensionMismatch ∧ ¬ Regular data) ∨
    (err = .valueError ∧ ¬ DistinctNames data) ∨
    (∃ p e, LeafAt data p e ∧ e.name = .error err) := by
  induction fuel generalizing queue shape result with
  | zero =>
    cases queue with
    | nil => simp only [bfs] at h; cases h
    | cons a q => simp only [List.map_cons, List.sum_cons] at hf; omega
  | succ fuel ih =>
    cases queue with
    | nil => simp only [bfs] at h; cases h
    | cons a q =>
      obtain ⟨cur, idx⟩ := a
      have hat : listAt data idx = some cur := inv.q_at (cur, idx) (by simp)
      simp only [bfs] at h
      cases hg : growShape shape idx.length cur.length with
      | error e =>
        rw [hg] at h
        obtain rfl := Except.error.inj h
        obtain ⟨rfl, n, hn, hne⟩ := growShape_error hg
        obtain ⟨p, c, hp, hc, hcl⟩ := inv.wit _ _ hn
        exact Or.inl ⟨rfl, fun hr => hne (by rw [← hcl]; exact hr p idx c cur hp hc hat)⟩
      | ok shape' =>
        rw [hg] at h
        simp only at h
        cases hs : scan idx cur 0 q result with
        | ok r =>
          rw [hs] at h
          refine ih (inv_step inv hg hs) ?_ (disj_step disj hs) h
          have := (scan_ok hs).meas
          simp only [List.map_cons, List.sum_cons] at hf
          omega
        | error e =>
          rw [hs] at h
          obtain rfl := Except.error.inj h
          rcases scan_error hs with ⟨k, e', h1, h2, h3⟩ | ⟨rfl, k, e', s, h1, h2, h3⟩
          · exact Or.inr (Or.inr ⟨idx ++ [k], e', ⟨h2, idx, k, cur, rfl, hat, h1⟩, h3⟩)
          · refine Or.inr (Or.inl ⟨rfl, fun hd => ?_⟩)
            have hl : LeafAt data (idx ++ [k]) e' := ⟨name_not_list h2, idx, k, cur, rfl, hat, h1⟩
            rcases h3 with h3 | ⟨k', hk', e'', h4, h5⟩
            · obtain ⟨x, hx, rfl⟩ := List.mem_map.1 h3
              obtain ⟨e'', he'', hn''⟩ := inv.sound x hx
              have := hd _ _ _ _ _ he'' hl hn'' h2
              exact disj.qr (cur, idx) (by simp) x hx (by rw [this]; exact List.prefix_append _ _)
            · have := hd _ _ _ _ _ hl ⟨name_not_list h5, idx, k', cur, rfl, hat, h4⟩ h2 h5
              have : k = k' := by simpa using this
              omega

theorem inv_init (data : List Schema) : BfsInv data [(data, [])] [] [] := by
  refine ⟨?_, by simp, by simp, by simp, ?_, ?_, by simp⟩
  · intro it hit
    obtain rfl := List.mem_singleton.1 hit
    rfl
  · intro p cur _
    exact Or.inr ⟨(data, []), by simp, List.nil_prefix⟩
  · intro p e _
    exact Or.inr ⟨(data, []), by simp, List.nil_prefix⟩

end Verif.ModelData
