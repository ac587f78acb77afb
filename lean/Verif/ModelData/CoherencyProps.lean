/-
C44-C46: correlation schemas and conversions.
-/
import Verif.ModelData.CoherencyConvLemmas
import Mathlib.Tactic.IntervalCases

set_option autoImplicit false

namespace Verif.ModelData

/-! ### C46 -/

/-- **C46** A schema is accepted exactly when lists at the same depth have the same length, all elements are names or
valid identifiers and no name occurs twice. -/
theorem C46_accept_iff (l : List Schema) :
    (∃ out, elementIndices (.list l) = .ok out) ↔ GoodSchema l := by
  constructor
  · rintro ⟨out, h⟩
    have inv : BfsInv l [] out.2 out.1 := bfs_ok (inv_init l) h
    exact good_of_inv inv
  · rintro ⟨h1, h2, h3⟩
    cases h : elementIndices (.list l) with
    | ok out => exact ⟨out, rfl⟩
    | error err =>
      exfalso
      rcases bfs_error (inv_init l) (by simp) ⟨by simp, List.pairwise_singleton _ _⟩ h with ⟨_, h'⟩ | ⟨_, h'⟩ | ⟨p, e, hl, hn⟩
      · exact h' h1
      · exact h' h3
      · obtain ⟨s, hs⟩ := h2 p e hl
        rw [hs] at hn; cases hn

example : GoodSchema [.list [.str "XX", .num 10], .list [.str "YX", .str "YY"]] :=
  (C46_accept_iff _).1 ⟨_, rfl⟩

/-- **C46** Why a schema is rejected: unequal lengths raise `DimensionMismatch`, repeated names and unknown identifiers
`ValueError`, other elements `TypeError`. -/
theorem C46_reject (l : List Schema) (err : PyErr) (h : elementIndices (.list l) = .error err) :
    (err = .dimensionMismatch ∧ ¬ Regular l) ∨
    (err = .valueError ∧ (¬ DistinctNames l ∨ ∃ p i, LeafAt l p (.num i) ∧ stokesId i = none)) ∨
    (err = .typeError ∧ ∃ p, LeafAt l p .other) := by
  rcases bfs_error (inv_init l) (by simp) ⟨by simp, List.pairwise_singleton _ _⟩ h with h' | ⟨h', h''⟩ | ⟨p, e, hl, hn⟩
  · exact Or.inl h'
  · exact Or.inr (Or.inl ⟨h', Or.inl h''⟩)
  · cases e with
    | str s => cases hn
    | num i =>
      simp only [Schema.name] at hn
      cases hi : stokesId i with
      | some s => rw [hi] at hn; cases hn
      | none =>
        rw [hi] at hn
        exact Or.inr (Or.inl ⟨(Except.error.inj hn).symm, Or.inr ⟨p, i, hl, hi⟩⟩)
    | list l' => exact absurd rfl (hl.1 l')
    | other => exact Or.inr (Or.inr ⟨(Except.error.inj hn).symm, p, hl⟩)

example : elementIndices (.list [.list [.str "XX"], .list [.str "YX", .str "YY"]]) = .error .dimensionMismatch := rfl
example : elementIndices (.list [.str "XX", .num 9]) = .error .valueError := rfl
example : elementIndices (.list [.str "XX", .other]) = .error .typeError := rfl

/-- **C46** The reported indices are exactly the positions of the schema's elements, each name once. -/
theorem C46_indices (l : List Schema) (res : List (String × List Nat)) (shape : List Nat)
    (h : elementIndices (.list l) = .ok (res, shape)) :
    (∀ s p, (s, p) ∈ res ↔ Has l s p) ∧ (res.map Prod.fst).Nodup ∧ (res.map Prod.snd).Nodup := by
  have inv : BfsInv l [] shape res := bfs_ok (inv_init l) h
  exact ⟨fun s p => mem_iff_of_inv inv, inv.nodup, nodup_snd inv⟩

/-- **C46** The reported shape: the k-th entry is the length of every list at depth `k`, and there is one; every index
is within it. -/
theorem C46_in_bounds (l : List Schema) (res : List (String × List Nat)) (shape : List Nat)
    (h : elementIndices (.list l) = .ok (res, shape)) :
    (∀ p c, listAt l p = some c → shape[p.length]? = some c.length) ∧
    (∀ (k n : Nat), shape[k]? = some n → ∃ p c, p.length = k ∧ listAt l p = some c ∧ c.length = n) ∧
    (∀ s p, (s, p) ∈ res → p.length ≤ shape.length ∧ ∀ (k i : Nat), p[k]? = some i → ∃ n, shape[k]? = some n ∧ i < n) := by
  have inv : BfsInv l [] shape res := bfs_ok (inv_init l) h
  have hl : ∀ p c, listAt l p = some c → shape[p.length]? = some c.length := by
    intro p c hp
    rcases inv.lens p c hp with h' | ⟨it, hit, _⟩
    · exact h'
    · cases hit
  refine ⟨hl, inv.wit, ?_⟩
  intro s p hp
  obtain ⟨e, ⟨_, q, i, c, rfl, hq, hc⟩, _⟩ := inv.sound (s, p) hp
  have hql : q.length < shape.length := (List.getElem?_eq_some_iff.1 (hl q c hq)).1
  refine ⟨by simp; omega, ?_⟩
  intro k j hk
  have key : ∀ t : List Nat, t ++ [j] <+: q ++ [i] → t.length = k → ∃ n, shape[k]? = some n ∧ j < n := by
    intro t ht htk
    rcases List.prefix_concat_iff.1 ht with h' | h'
    · have h1 := List.append_inj' h' rfl
      have h2 : j = i := by simpa using h1.2
      obtain ⟨rfl, rfl⟩ : t = q ∧ j = i := ⟨h1.1, h2⟩
      exact ⟨c.length, by rw [← htk]; exact hl _ _ hq, (List.getElem?_eq_some_iff.1 hc).1⟩
    · obtain ⟨d, hd⟩ := listAt_prefix h' hq
      obtain ⟨cur, h1, h2⟩ := listAt_snoc_some hd
      exact ⟨cur.length, by rw [← htk]; exact hl _ _ h1, (List.getElem?_eq_some_iff.1 h2).1⟩
  obtain ⟨hkl, hkj⟩ := List.getElem?_eq_some_iff.1 hk
  refine key ((q ++ [i]).take k) ?_ (by rw [List.length_take]; omega)
  have : (q ++ [i]).take k ++ [j] = (q ++ [i]).take (k + 1) := by
    rw [List.take_add_one, hk]; rfl
  rw [this]
  exact List.take_prefix _ _

example : elementIndices (.list [.list [.str "XX", .num 10], .list [.str "YX", .str "YY"]]) =
    .ok ([("XX", [0, 0]), ("XY", [0, 1]), ("YX", [1, 0]), ("YY", [1, 1])], [2, 2]) := rfl

/-- **C46** fails for irregular schemas that mix elements and lists: a schema whose elements are at different depths is
accepted, and an element's index is shorter than the reported shape. -/
theorem C46_violated :
    ∃ (l : List Schema) (res : List (String × List Nat)) (shape : List Nat) (s : String) (p : List Nat),
      elementIndices (.list l) = .ok (res, shape) ∧ (s, p) ∈ res ∧ p.length ≠ shape.length :=
  ⟨[.str "I", .list [.str "Q", .str "U"]], [("I", [0]), ("Q", [1, 0]), ("U", [1, 1])], [2, 2], "I", [0], rfl,
    by simp, by simp⟩

/-- **C46** A numerical element stands for the casacore correlation type with that number; any other number is refused
with `ValueError`. A string stands for itself. -/
theorem C46_identifiers (i : Int) (s : String) :
    (Schema.name (.num i) = .ok s ↔ (i, s) ∈ casaStokes) ∧
    ((∀ s', (i, s') ∉ casaStokes) → Schema.name (.num i) = .error .valueError) ∧
    Schema.name (.str s) = .ok s := by
  have key : ∀ s, stokesId i = some s ↔ (i, s) ∈ casaStokes := by
    intro s
    by_cases hi : 0 ≤ i ∧ i < 33
    · obtain ⟨h0, h1⟩ := hi
      interval_cases i <;> simp [stokesId, stokesTypes, casaStokes, eq_comm]
    · have hn : stokesId i = none := by
        unfold stokesId
        split
        · rfl
        · rw [List.getElem?_eq_none]
          simp only [stokesTypes, List.length_cons, List.length_nil]
          omega
      rw [hn]
      constructor
      · intro h; cases h
      · intro h
        have hb : ∀ p ∈ casaStokes, 0 ≤ p.1 ∧ p.1 < 33 := by decide
        exact absurd (hb _ h) hi
  refine ⟨?_, ?_, rfl⟩
  · rw [← key]
    simp only [Schema.name]
    cases stokesId i <;> simp
  · intro h
    cases hs : stokesId i with
    | none => simp only [Schema.name, hs]
    | some s' => exact absurd ((key s').1 hs) (h s')

example : Schema.name (.num 9) = .ok "XX" ∧ Schema.name (.num 33) = .error .valueError :=
  ⟨(C46_identifiers 9 "XX").1.2 (by decide), (C46_identifiers 33 "").2.1 (by simp [casaStokes])⟩

/-! ### C45 -/

/-- **C45** With acceptable schemas, a matching input and outputs that can be computed in principle,
`MissingConversionInputs` is raised exactly when some output has no alternative with both inputs in the schema. -/
theorem C45_missing_iff (lead : List Nat) (x : List Nat → ℂ) (il ol : List Schema)
    (ires ores : List (String × List Nat)) (ishape oshape : List Nat)
    (hi : elementIndices (.list il) = .ok (ires, ishape)) (ho : elementIndices (.list ol) = .ok (ores, oshape))
    (known : ∀ s p, Has ol s p → s ∈ knownOutputs) :
    convert (lead ++ ishape) x (.list il) (.list ol) = .error .missingConversionInputs ↔
      ∃ s p, Has ol s p ∧ ∀ c ∈ requires s, (∀ q, ¬ Has il c.1 q) ∨ (∀ q, ¬ Has il c.2 q) := by
  have io := C46_indices il ires ishape hi
  have oo := C46_indices ol ores oshape ho
  rw [convert_eq hi ho]
  constructor
  · intro h
    cases hb : buildMapping ires false ores [] with
    | ok m =>
      rw [hb] at h
      by_cases hm : m.isEmpty = true
      · simp [hm] at h
      · simp [hm] at h
    | error e =>
      rw [hb] at h
      simp only [Except.error.injEq] at h
      subst h
      obtain ⟨⟨s, p⟩, ho', h' | ⟨deps, h1, h2, _⟩⟩ := buildMapping_error hb
      · exact absurd h' (known_ne_none (known s p ((oo.1 s p).1 ho')))
      · refine ⟨s, p, (oo.1 s p).1 ho', fun c hc => ?_⟩
        rw [requires_eq h1] at hc
        obtain ⟨a, ha, rfl⟩ := List.mem_map.1 hc
        rcases findConv_none h2 a ha with h3 | h3
        · exact Or.inl fun q hq => (indexOf_none h3) q ((io.1 _ _).2 hq)
        · exact Or.inr fun q hq => (indexOf_none h3) q ((io.1 _ _).2 hq)
  · rintro ⟨s, p, hs, hmiss⟩
    have hm := (oo.1 s p).2 hs
    have hk := known_ne_none (known s p hs)
    cases hb : buildMapping ires false ores [] with
    | ok m =>
      exfalso
      obtain ⟨es, rfl, hf⟩ := buildMapping_ok hb
      obtain ⟨e, _, deps, h1, h2⟩ := forall2_left hf hm
      obtain ⟨pre, c1, c2, fn, post, i1, i2, hdeps, _, hi1, hi2, _⟩ := findConv_some h2
      have : (c1, c2) ∈ requires s := by
        rw [requires_eq h1, hdeps]; simp
      rcases hmiss _ this with h3 | h3
      · exact h3 _ ((io.1 _ _).1 (indexOf_some hi1))
      · exact h3 _ ((io.1 _ _).1 (indexOf_some hi2))
    | error e =>
      obtain ⟨⟨s', p'⟩, ho', h' | ⟨deps, h1, h2, rfl⟩⟩ := buildMapping_error hb
      · exact absurd h' (known_ne_none (known s' p' ((oo.1 s' p').1 ho')))
      · rfl

example : convert ([7] ++ [2]) (fun _ => 1) (.list [.str "I", .str "Q"]) (.list [.str "XX", .str "XY"]) =
    .error .missingConversionInputs :=
  (C45_missing_iff [7] _ [.str "I", .str "Q"] [.str "XX", .str "XY"] [("I", [0]), ("Q", [1])]
    [("XX", [0]), ("XY", [1])] [2] [2] rfl rfl
    (fun s p h => by
      have := (C46_indices _ [("XX", [0]), ("XY", [1])] [2] rfl).1 s p |>.2 h
      simp only [List.mem_cons, Prod.mk.injEq, List.not_mem_nil, or_false] at this
      rcases this with ⟨rfl, _⟩ | ⟨rfl, _⟩ <;> decide)).2
  ⟨"XY", [1], (C46_indices _ [("XX", [0]), ("XY", [1])] [2] rfl).1 _ _ |>.1 (by simp), by
    intro c hc
    simp only [requires, List.mem_singleton] at hc
    subst hc
    refine Or.inl fun q hq => ?_
    have := (C46_indices _ [("I", [0]), ("Q", [1])] [2] rfl).1 _ _ |>.2 hq
    simp at this⟩

/-- **C45** When every output has an alternative whose inputs are present the conversion succeeds: every output gets the
value of its first available alternative, computed from the two inputs at their schema positions. -/
theorem C45_ok (lead : List Nat) (x : List Nat → ℂ) (il ol : List Schema)
    (ires ores : List (String × List Nat)) (ishape oshape : List Nat)
    (hi : elementIndices (.list il) = .ok (ires, ishape)) (ho : elementIndices (.list ol) = .ok (ores, oshape))
    (known : ∀ s p, Has ol s p → s ∈ knownOutputs) (nonempty : ∃ s p, Has ol s p)
    (avail : ∀ s p, Has ol s p → ∃ c ∈ requires s, (∃ q, Has il c.1 q) ∧ ∃ q, Has il c.2 q) :
    ∃ out, convert (lead ++ ishape) x (.list il) (.list ol) = .ok out ∧
      ∀ s p, Has ol s p → ∃ pre c1 c2 fn post q1 q2, stokesConv s = some (pre ++ ((c1, c2), fn) :: post) ∧
        (∀ a ∈ pre, (∀ q, ¬ Has il a.1.1 q) ∨ (∀ q, ¬ Has il a.1.2 q)) ∧
        Has il c1 q1 ∧ Has il c2 q2 ∧ out p = some (fn (x q1) (x q2)) := by
  have io := C46_indices il ires ishape hi
  have oo := C46_indices ol ores oshape ho
  rw [convert_eq hi ho]
  cases hb : buildMapping ires false ores [] with
  | error e =>
    exfalso
    obtain ⟨⟨s, p⟩, ho', h' | ⟨deps, h1, h2, _⟩⟩ := buildMapping_error hb
    · exact absurd h' (known_ne_none (known s p ((oo.1 s p).1 ho')))
    · obtain ⟨c, hc, ⟨q1, hq1⟩, ⟨q2, hq2⟩⟩ := avail s p ((oo.1 s p).1 ho')
      rw [requires_eq h1] at hc
      obtain ⟨a, ha, rfl⟩ := List.mem_map.1 hc
      rcases findConv_none h2 a ha with h3 | h3
      · exact (indexOf_none h3) q1 ((io.1 _ _).2 hq1)
      · exact (indexOf_none h3) q2 ((io.1 _ _).2 hq2)
  | ok m =>
    obtain ⟨es, hes, hf⟩ := buildMapping_ok hb
    obtain rfl : m = es := by simpa using hes
    have hne : m.isEmpty = false := by
      obtain ⟨s, p, hs⟩ := nonempty
      obtain ⟨e, he, _⟩ := forall2_left hf ((oo.1 s p).2 hs)
      cases m with
      | nil => cases he
      | cons a t => rfl
    simp only [hne]
    refine ⟨_, rfl, fun s p hs => ?_⟩
    obtain ⟨e, he, deps, h1, h2⟩ := forall2_left hf ((oo.1 s p).2 hs)
    obtain ⟨pre, c1, c2, fn, post, i1, i2, hdeps, hpre, hi1, hi2, rfl⟩ := findConv_some h2
    refine ⟨pre, c1, c2, fn, post, i1, i2, by rw [h1, hdeps], ?_, (io.1 _ _).1 (indexOf_some hi1),
      (io.1 _ _).1 (indexOf_some hi2), ?_⟩
    · intro a ha
      rcases hpre a ha with h3 | h3
      · exact Or.inl fun q hq => (indexOf_none h3) q ((io.1 _ _).2 hq)
      · exact Or.inr fun q hq => (indexOf_none h3) q ((io.1 _ _).2 hq)
    · exact runMapping_value x (by rw [mapping_outs hf]; exact oo.2.2) he

/-- **C45** Only inputs named in the schema are used. -/
theorem C45_reads (shape : List Nat) (x y : List Nat → ℂ) (il ol : List Schema)
    (agree : ∀ s q, Has il s q → x q = y q) :
    convert shape x (.list il) (.list ol) = convert shape y (.list il) (.list ol) := by
  cases hi : elementIndices (.list il) with
  | error e => simp only [convert, convertSetup, hi, bind, Except.bind]
  | ok i =>
    have io := C46_indices il i.1 i.2 hi
    unfold convert
    cases hc : convertSetup shape (.list il) (.list ol) with
    | error e => rfl
    | ok m =>
      refine congrArg Except.ok (runMapping_congr ?_)
      intro e he
      obtain ⟨⟨s1, h1⟩, ⟨s2, h2⟩⟩ := convertSetup_reads hi hc e he
      exact ⟨agree s1 _ ((io.1 _ _).1 h1), agree s2 _ ((io.1 _ _).1 h2)⟩

/-- **C45** (disagreement) An output that cannot be computed at all is meant to raise `ValueError`, but when it is the
first output the message refers to a variable that is not assigned yet. -/
theorem C45_unknown_output :
    convert [4] (fun _ => 0) (.list [.str "I", .str "Q", .str "U", .str "V"]) (.list [.str "XR"]) =
      .error .unboundLocalError ∧
    convert [4] (fun _ => 0) (.list [.str "I", .str "Q", .str "U", .str "V"]) (.list [.str "XX", .str "XR"]) =
      .error .valueError := by
  constructor
  · rw [show ([4] : List Nat) = [] ++ [4] from rfl,
      convert_eq (ires := [("I", [0]), ("Q", [1]), ("U", [2]), ("V", [3])]) (ores := [("XR", [0])]) (oshape := [1]) rfl rfl]
    rfl
  · rw [show ([4] : List Nat) = [] ++ [4] from rfl,
      convert_eq (ires := [("I", [0]), ("Q", [1]), ("U", [2]), ("V", [3])]) (ores := [("XX", [0]), ("XR", [1])])
        (oshape := [2]) rfl rfl]
    rfl

/-! ### C44 -/

theorem stokes_avail {il : List Schema} {pI pQ pU pV : List Nat} (hI : Has il "I" pI) (hQ : Has il "Q" pQ)
    (hU : Has il "U" pU) (hV : Has il "V" pV) {s : String}
    (hs : s ∈ ["XX", "XY", "YX", "YY", "RR", "RL", "LR", "LL"]) :
    ∃ c ∈ requires s, (∃ q, Has il c.1 q) ∧ ∃ q, Has il c.2 q := by
  simp only [List.mem_cons, List.not_mem_nil, or_false] at hs
  rcases hs with rfl | rfl | rfl | rfl | rfl | rfl | rfl | rfl
  · exact ⟨("I", "Q"), by simp [requires], ⟨_, hI⟩, ⟨_, hQ⟩⟩
  · exact ⟨("U", "V"), by simp [requires], ⟨_, hU⟩, ⟨_, hV⟩⟩
  · exact ⟨("U", "V"), by simp [requires], ⟨_, hU⟩, ⟨_, hV⟩⟩
  · exact ⟨("I", "Q"), by simp [requires], ⟨_, hI⟩, ⟨_, hQ⟩⟩
  · exact ⟨("I", "V"), by simp [requires], ⟨_, hI⟩, ⟨_, hV⟩⟩
  · exact ⟨("Q", "U"), by simp [requires], ⟨_, hQ⟩, ⟨_, hU⟩⟩
  · exact ⟨("Q", "U"), by simp [requires], ⟨_, hQ⟩, ⟨_, hU⟩⟩
  · exact ⟨("I", "V"), by simp [requires], ⟨_, hI⟩, ⟨_, hV⟩⟩

theorem corr_known {s : String} (hs : s ∈ ["XX", "XY", "YX", "YY", "RR", "RL", "LR", "LL"]) : s ∈ knownOutputs := by
  simp only [List.mem_cons, List.not_mem_nil, or_false] at hs
  rcases hs with rfl | rfl | rfl | rfl | rfl | rfl | rfl | rfl <;> simp [knownOutputs]

theorem stokes_known {s : String} (hs : s ∈ ["I", "Q", "U", "V"]) : s ∈ knownOutputs := by
  simp only [List.mem_cons, List.not_mem_nil, or_false] at hs
  rcases hs with rfl | rfl | rfl | rfl <;> simp [knownOutputs]

/-- Values of the correlations computed from Stokes parameters. -/
theorem corr_values {lead : List Nat} {x : List Nat → ℂ} {il ml : List Schema}
    {ires mres : List (String × List Nat)} {ishape mshape : List Nat}
    (hi : elementIndices (.list il) = .ok (ires, ishape)) (hm : elementIndices (.list ml) = .ok (mres, mshape))
    {pI pQ pU pV : List Nat} (hI : Has il "I" pI) (hQ : Has il "Q" pQ) (hU : Has il "U" pU) (hV : Has il "V" pV)
    (names : ∀ s p, Has ml s p → s ∈ ["XX", "XY", "YX", "YY", "RR", "RL", "LR", "LL"])
    (ne : ∃ s p, Has ml s p) :
    ∃ mid, convert (lead ++ ishape) x (.list il) (.list ml) = .ok mid ∧
      (∀ p, Has ml "XX" p → mid p = some (x pI + x pQ)) ∧
      (∀ p, Has ml "XY" p → mid p = some (x pU + x pV * Complex.I)) ∧
      (∀ p, Has ml "YX" p → mid p = some (x pU - x pV * Complex.I)) ∧
      (∀ p, Has ml "YY" p → mid p = some (x pI - x pQ)) ∧
      (∀ p, Has ml "RR" p → mid p = some (x pI + x pV)) ∧
      (∀ p, Has ml "RL" p → mid p = some (x pQ + x pU * Complex.I)) ∧
      (∀ p, Has ml "LR" p → mid p = some (x pQ - x pU * Complex.I)) ∧
      (∀ p, Has ml "LL" p → mid p = some (x pI - x pV)) := by
  obtain ⟨mid, h1, h2⟩ := C45_ok lead x il ml ires mres ishape mshape hi hm
    (fun s p h => corr_known (names s p h)) ne (fun s p h => stokes_avail hI hQ hU hV (names s p h))
  have io := C46_indices il ires ishape hi
  refine ⟨mid, h1, ?_, ?_, ?_, ?_, ?_, ?_, ?_, ?_⟩ <;> intro p hp
  · exact first_value (pre := []) io.1 io.2.1 (h2 _ p hp) rfl (by simp) hI hQ
  · exact first_value (pre := []) io.1 io.2.1 (h2 _ p hp) rfl (by simp) hU hV
  · exact first_value (pre := []) io.1 io.2.1 (h2 _ p hp) rfl (by simp) hU hV
  · exact first_value (pre := []) io.1 io.2.1 (h2 _ p hp) rfl (by simp) hI hQ
  · exact first_value (pre := []) io.1 io.2.1 (h2 _ p hp) rfl (by simp) hI hV
  · exact first_value (pre := []) io.1 io.2.1 (h2 _ p hp) rfl (by simp) hQ hU
  · exact first_value (pre := []) io.1 io.2.1 (h2 _ p hp) rfl (by simp) hQ hU
  · exact first_value (pre := []) io.1 io.2.1 (h2 _ p hp) rfl (by simp) hI hV

/-- Values of the Stokes parameters computed from linear correlations (whether or not circular ones are present). -/
theorem stokes_values_linear {lead : List Nat} {x : List Nat → ℂ} {il ml : List Schema}
    {ires mres : List (String × List Nat)} {ishape mshape : List Nat}
    (hi : elementIndices (.list il) = .ok (ires, ishape)) (hm : elementIndices (.list ml) = .ok (mres, mshape))
    {pXX pXY pYX pYY : List Nat} (hXX : Has il "XX" pXX) (hXY : Has il "XY" pXY) (hYX : Has il "YX" pYX)
    (hYY : Has il "YY" pYY)
    (names : ∀ s p, Has ml s p → s ∈ ["I", "Q", "U", "V"]) (ne : ∃ s p, Has ml s p) :
    ∃ mid, convert (lead ++ ishape) x (.list il) (.list ml) = .ok mid ∧
      (∀ p, Has ml "I" p → mid p = some (((x pXX + x pYY).re / 2 : ℝ) : ℂ)) ∧
      (∀ p, Has ml "Q" p → mid p = some (((x pXX - x pYY).re / 2 : ℝ) : ℂ)) ∧
      (∀ p, Has ml "U" p → mid p = some (((x pXY + x pYX).re / 2 : ℝ) : ℂ)) ∧
      (∀ p, Has ml "V" p → mid p = some (((x pXY - x pYX).im / 2 : ℝ) : ℂ)) := by
  obtain ⟨mid, h1, h2⟩ := C45_ok lead x il ml ires mres ishape mshape hi hm
    (fun s p h => stokes_known (names s p h)) ne (fun s p h => by
      have hs := names s p h
      simp only [List.mem_cons, List.not_mem_nil, or_false] at hs
      rcases hs with rfl | rfl | rfl | rfl
      · exact ⟨("XX", "YY"), by simp [requires], ⟨_, hXX⟩, ⟨_, hYY⟩⟩
      · exact ⟨("XX", "YY"), by simp [requires], ⟨_, hXX⟩, ⟨_, hYY⟩⟩
      · exact ⟨("XY", "YX"), by simp [requires], ⟨_, hXY⟩, ⟨_, hYX⟩⟩
      · exact ⟨("XY", "YX"), by simp [requires], ⟨_, hXY⟩, ⟨_, hYX⟩⟩)
  have io := C46_indices il ires ishape hi
  refine ⟨mid, h1, ?_, ?_, ?_, ?_⟩ <;> intro p hp
  · exact first_value (pre := []) io.1 io.2.1 (h2 _ p hp) rfl (by simp) hXX hYY
  · exact first_value (pre := []) io.1 io.2.1 (h2 _ p hp) rfl (by simp) hXX hYY
  · exact first_value (pre := []) io.1 io.2.1 (h2 _ p hp) rfl (by simp) hXY hYX
  · exact first_value (pre := []) io.1 io.2.1 (h2 _ p hp) rfl (by simp) hXY hYX

/-- Values of the Stokes parameters computed from circular correlations. -/
theorem stokes_values_circular {lead : List Nat} {x : List Nat → ℂ} {il ml : List Schema}
    {ires mres : List (String × List Nat)} {ishape mshape : List Nat}
    (hi : elementIndices (.list il) = .ok (ires, ishape)) (hm : elementIndices (.list ml) = .ok (mres, mshape))
    {pRR pRL pLR pLL : List Nat} (hRR : Has il "RR" pRR) (hRL : Has il "RL" pRL) (hLR : Has il "LR" pLR)
    (hLL : Has il "LL" pLL) (nolin : (∀ q, ¬ Has il "XX" q) ∧ (∀ q, ¬ Has il "XY" q))
    (names : ∀ s p, Has ml s p → s ∈ ["I", "Q", "U", "V"]) (ne : ∃ s p, Has ml s p) :
    ∃ mid, convert (lead ++ ishape) x (.list il) (.list ml) = .ok mid ∧
      (∀ p, Has ml "I" p → mid p = some (((x pRR + x pLL).re / 2 : ℝ) : ℂ)) ∧
      (∀ p, Has ml "Q" p → mid p = some (((x pRL + x pLR).re / 2 : ℝ) : ℂ)) ∧
      (∀ p, Has ml "U" p → mid p = some (((x pRL - x pLR).im / 2 : ℝ) : ℂ)) ∧
      (∀ p, Has ml "V" p → mid p = some (((x pRR - x pLL).re / 2 : ℝ) : ℂ)) := by
  obtain ⟨mid, h1, h2⟩ := C45_ok lead x il ml ires mres ishape mshape hi hm
    (fun s p h => stokes_known (names s p h)) ne (fun s p h => by
      have hs := names s p h
      simp only [List.mem_cons, List.not_mem_nil, or_false] at hs
      rcases hs with rfl | rfl | rfl | rfl
      · exact ⟨("RR", "LL"), by simp [requires], ⟨_, hRR⟩, ⟨_, hLL⟩⟩
      · exact ⟨("RL", "LR"), by simp [requires], ⟨_, hRL⟩, ⟨_, hLR⟩⟩
      · exact ⟨("RL", "LR"), by simp [requires], ⟨_, hRL⟩, ⟨_, hLR⟩⟩
      · exact ⟨("RR", "LL"), by simp [requires], ⟨_, hRR⟩, ⟨_, hLL⟩⟩)
  have io := C46_indices il ires ishape hi
  refine ⟨mid, h1, ?_, ?_, ?_, ?_⟩ <;> intro p hp
  · exact first_value (pre := [_]) io.1 io.2.1 (h2 _ p hp) rfl
      (by rintro a ha; obtain rfl := List.mem_singleton.1 ha; exact Or.inl nolin.1) hRR hLL
  · exact first_value (pre := [_]) io.1 io.2.1 (h2 _ p hp) rfl
      (by rintro a ha; obtain rfl := List.mem_singleton.1 ha; exact Or.inl nolin.1) hRL hLR
  · exact first_value (pre := [_]) io.1 io.2.1 (h2 _ p hp) rfl
      (by rintro a ha; obtain rfl := List.mem_singleton.1 ha; exact Or.inl nolin.2) hRL hLR
  · exact first_value (pre := [_]) io.1 io.2.1 (h2 _ p hp) rfl
      (by rintro a ha; obtain rfl := List.mem_singleton.1 ha; exact Or.inl nolin.2) hRR hLL

theorem has_unique {il : List Schema} {ires : List (String × List Nat)} {ishape : List Nat}
    (hi : elementIndices (.list il) = .ok (ires, ishape)) {s : String} {p q : List Nat}
    (hp : Has il s p) (hq : Has il s q) : p = q := by
  have io := C46_indices il ires ishape hi
  exact nodup_fst_inj io.2.1 ((io.1 _ _).2 hp) ((io.1 _ _).2 hq)

/-- **C44** Real Stokes parameters converted to linear correlations and back are unchanged, whatever the order and
nesting of the three schemas. -/
theorem C44_stokes_linear (lead : List Nat) (x : List Nat → ℂ) (il ml ol : List Schema)
    (ires mres ores : List (String × List Nat)) (ishape mshape oshape : List Nat)
    (hi : elementIndices (.list il) = .ok (ires, ishape)) (hm : elementIndices (.list ml) = .ok (mres, mshape))
    (ho : elementIndices (.list ol) = .ok (ores, oshape))
    (inputs : ∀ s ∈ ["I", "Q", "U", "V"], ∃ p, Has il s p ∧ (x p).im = 0)
    (linear : ∀ s ∈ ["XX", "XY", "YX", "YY"], ∃ p, Has ml s p)
    (only : ∀ s p, Has ml s p → s ∈ ["XX", "XY", "YX", "YY", "RR", "RL", "LR", "LL"])
    (outputs : ∀ s p, Has ol s p → s ∈ ["I", "Q", "U", "V"]) (ne : ∃ s p, Has ol s p) :
    ∃ mid back, convert (lead ++ ishape) x (.list il) (.list ml) = .ok mid ∧
      convert (lead ++ mshape) (fun p => (mid p).getD 0) (.list ml) (.list ol) = .ok back ∧
      ∀ s p q, Has ol s p → Has il s q → back p = some (x q) := by
  obtain ⟨pI, hI, rI⟩ := inputs "I" (by simp)
  obtain ⟨pQ, hQ, rQ⟩ := inputs "Q" (by simp)
  obtain ⟨pU, hU, rU⟩ := inputs "U" (by simp)
  obtain ⟨pV, hV, rV⟩ := inputs "V" (by simp)
  obtain ⟨pXX, hXX⟩ := linear "XX" (by simp)
  obtain ⟨pXY, hXY⟩ := linear "XY" (by simp)
  obtain ⟨pYX, hYX⟩ := linear "YX" (by simp)
  obtain ⟨pYY, hYY⟩ := linear "YY" (by simp)
  obtain ⟨mid, m0, m1, m2, m3, m4, _⟩ := corr_values (lead := lead) (x := x) hi hm hI hQ hU hV only ⟨_, _, hXX⟩
  obtain ⟨back, b0, b1, b2, b3, b4⟩ := stokes_values_linear (lead := lead) (x := fun p => (mid p).getD 0) hm ho
    hXX hXY hYX hYY outputs ne
  refine ⟨mid, back, m0, b0, fun s p q hp hq => ?_⟩
  have hs := outputs s p hp
  simp only [List.mem_cons, List.not_mem_nil, or_false] at hs
  rcases hs with rfl | rfl | rfl | rfl
  · obtain rfl := has_unique hi hI hq
    rw [b1 p hp, m1 _ hXX, m4 _ hYY]
    refine congrArg some (Complex.ext ?_ ?_) <;> simp [rI, rQ]
  · obtain rfl := has_unique hi hQ hq
    rw [b2 p hp, m1 _ hXX, m4 _ hYY]
    refine congrArg some (Complex.ext ?_ ?_) <;> simp [rI, rQ]
  · obtain rfl := has_unique hi hU hq
    rw [b3 p hp, m2 _ hXY, m3 _ hYX]
    refine congrArg some (Complex.ext ?_ ?_) <;> simp [rU, rV]
  · obtain rfl := has_unique hi hV hq
    rw [b4 p hp, m2 _ hXY, m3 _ hYX]
    refine congrArg some (Complex.ext ?_ ?_) <;> simp [rU, rV]

/-- **C44** Real Stokes parameters converted to circular correlations and back are unchanged. -/
theorem C44_stokes_circular (lead : List Nat) (x : List Nat → ℂ) (il ml ol : List Schema)
    (ires mres ores : List (String × List Nat)) (ishape mshape oshape : List Nat)
    (hi : elementIndices (.list il) = .ok (ires, ishape)) (hm : elementIndices (.list ml) = .ok (mres, mshape))
    (ho : elementIndices (.list ol) = .ok (ores, oshape))
    (inputs : ∀ s ∈ ["I", "Q", "U", "V"], ∃ p, Has il s p ∧ (x p).im = 0)
    (circular : ∀ s ∈ ["RR", "RL", "LR", "LL"], ∃ p, Has ml s p)
    (only : ∀ s p, Has ml s p → s ∈ ["RR", "RL", "LR", "LL"])
    (outputs : ∀ s p, Has ol s p → s ∈ ["I", "Q", "U", "V"]) (ne : ∃ s p, Has ol s p) :
    ∃ mid back, convert (lead ++ ishape) x (.list il) (.list ml) = .ok mid ∧
      convert (lead ++ mshape) (fun p => (mid p).getD 0) (.list ml) (.list ol) = .ok back ∧
      ∀ s p q, Has ol s p → Has il s q → back p = some (x q) := by
  obtain ⟨pI, hI, rI⟩ := inputs "I" (by simp)
  obtain ⟨pQ, hQ, rQ⟩ := inputs "Q" (by simp)
  obtain ⟨pU, hU, rU⟩ := inputs "U" (by simp)
  obtain ⟨pV, hV, rV⟩ := inputs "V" (by simp)
  obtain ⟨pXX, hXX⟩ := circular "RR" (by simp)
  obtain ⟨pXY, hXY⟩ := circular "RL" (by simp)
  obtain ⟨pYX, hYX⟩ := circular "LR" (by simp)
  obtain ⟨pYY, hYY⟩ := circular "LL" (by simp)
  obtain ⟨mid, m0, _, _, _, _, m1, m2, m3, m4⟩ := corr_values (lead := lead) (x := x) hi hm hI hQ hU hV
    (fun s p h => by
      have := only s p h
      simp only [List.mem_cons, List.not_mem_nil, or_false] at this ⊢
      tauto) ⟨_, _, hXX⟩
  obtain ⟨back, b0, b1, b2, b3, b4⟩ := stokes_values_circular (lead := lead) (x := fun p => (mid p).getD 0) hm ho
    hXX hXY hYX hYY ⟨fun q h => by simpa using only _ _ h, fun q h => by simpa using only _ _ h⟩ outputs ne
  refine ⟨mid, back, m0, b0, fun s p q hp hq => ?_⟩
  have hs := outputs s p hp
  simp only [List.mem_cons, List.not_mem_nil, or_false] at hs
  rcases hs with rfl | rfl | rfl | rfl
  · obtain rfl := has_unique hi hI hq
    rw [b1 p hp, m1 _ hXX, m4 _ hYY]
    refine congrArg some (Complex.ext ?_ ?_) <;> simp [rI, rV]
  · obtain rfl := has_unique hi hQ hq
    rw [b2 p hp, m2 _ hXY, m3 _ hYX]
    refine congrArg some (Complex.ext ?_ ?_) <;> simp [rQ, rU]
  · obtain rfl := has_unique hi hU hq
    rw [b3 p hp, m2 _ hXY, m3 _ hYX]
    refine congrArg some (Complex.ext ?_ ?_) <;> simp [rQ, rU]
  · obtain rfl := has_unique hi hV hq
    rw [b4 p hp, m1 _ hXX, m4 _ hYY]
    refine congrArg some (Complex.ext ?_ ?_) <;> simp [rI, rV]

/-- **C44** Linear correlations of a Hermitian coherency matrix converted to Stokes and back are unchanged. -/
theorem C44_linear_stokes (lead : List Nat) (x : List Nat → ℂ) (il ml ol : List Schema)
    (ires mres ores : List (String × List Nat)) (ishape mshape oshape : List Nat)
    (hi : elementIndices (.list il) = .ok (ires, ishape)) (hm : elementIndices (.list ml) = .ok (mres, mshape))
    (ho : elementIndices (.list ol) = .ok (ores, oshape))
    (pXX pXY pYX pYY : List Nat) (hXX : Has il "XX" pXX) (hXY : Has il "XY" pXY) (hYX : Has il "YX" pYX)
    (hYY : Has il "YY" pYY)
    (hermitian : (x pXX).im = 0 ∧ (x pYY).im = 0 ∧ (x pYX).re = (x pXY).re ∧ (x pYX).im = -(x pXY).im)
    (stokes : ∀ s ∈ ["I", "Q", "U", "V"], ∃ p, Has ml s p)
    (only : ∀ s p, Has ml s p → s ∈ ["I", "Q", "U", "V"])
    (outputs : ∀ s p, Has ol s p → s ∈ ["XX", "XY", "YX", "YY"]) (ne : ∃ s p, Has ol s p) :
    ∃ mid back, convert (lead ++ ishape) x (.list il) (.list ml) = .ok mid ∧
      convert (lead ++ mshape) (fun p => (mid p).getD 0) (.list ml) (.list ol) = .ok back ∧
      ∀ s p q, Has ol s p → Has il s q → back p = some (x q) := by
  obtain ⟨pI, hI⟩ := stokes "I" (by simp)
  obtain ⟨pQ, hQ⟩ := stokes "Q" (by simp)
  obtain ⟨pU, hU⟩ := stokes "U" (by simp)
  obtain ⟨pV, hV⟩ := stokes "V" (by simp)
  obtain ⟨r1, r2, r3, r4⟩ := hermitian
  obtain ⟨mid, m0, m1, m2, m3, m4⟩ := stokes_values_linear (lead := lead) (x := x) hi hm
    hXX hXY hYX hYY only ⟨_, _, hI⟩
  obtain ⟨back, b0, b1, b2, b3, b4, _⟩ := corr_values (lead := lead) (x := fun p => (mid p).getD 0) hm ho hI hQ hU hV
    (fun s p h => by
      have := outputs s p h
      simp only [List.mem_cons, List.not_mem_nil, or_false] at this ⊢
      tauto) ne
  refine ⟨mid, back, m0, b0, fun s p q hp hq => ?_⟩
  have hs := outputs s p hp
  simp only [List.mem_cons, List.not_mem_nil, or_false] at hs
  rcases hs with rfl | rfl | rfl | rfl
  · obtain rfl := has_unique hi hXX hq
    rw [b1 p hp, m1 _ hI, m2 _ hQ]
    refine congrArg some (Complex.ext ?_ ?_) <;> simp [r1] <;> ring
  · obtain rfl := has_unique hi hXY hq
    rw [b2 p hp, m3 _ hU, m4 _ hV]
    refine congrArg some (Complex.ext ?_ ?_) <;> simp [r3, r4]
  · obtain rfl := has_unique hi hYX hq
    rw [b3 p hp, m3 _ hU, m4 _ hV]
    refine congrArg some (Complex.ext ?_ ?_) <;> simp [r3, r4]
  · obtain rfl := has_unique hi hYY hq
    rw [b4 p hp, m1 _ hI, m2 _ hQ]
    refine congrArg some (Complex.ext ?_ ?_) <;> simp [r2] <;> ring

/-- **C44** Circular correlations of a Hermitian coherency matrix converted to Stokes and back are unchanged. -/
theorem C44_circular_stokes (lead : List Nat) (x : List Nat → ℂ) (il ml ol : List Schema)
    (ires mres ores : List (String × List Nat)) (ishape mshape oshape : List Nat)
    (hi : elementIndices (.list il) = .ok (ires, ishape)) (hm : elementIndices (.list ml) = .ok (mres, mshape))
    (ho : elementIndices (.list ol) = .ok (ores, oshape))
    (pRR pRL pLR pLL : List Nat) (hRR : Has il "RR" pRR) (hRL : Has il "RL" pRL) (hLR : Has il "LR" pLR)
    (hLL : Has il "LL" pLL) (nolin : (∀ q, ¬ Has il "XX" q) ∧ (∀ q, ¬ Has il "XY" q))
    (hermitian : (x pRR).im = 0 ∧ (x pLL).im = 0 ∧ (x pLR).re = (x pRL).re ∧ (x pLR).im = -(x pRL).im)
    (stokes : ∀ s ∈ ["I", "Q", "U", "V"], ∃ p, Has ml s p)
    (only : ∀ s p, Has ml s p → s ∈ ["I", "Q", "U", "V"])
    (outputs : ∀ s p, Has ol s p → s ∈ ["RR", "RL", "LR", "LL"]) (ne : ∃ s p, Has ol s p) :
    ∃ mid back, convert (lead ++ ishape) x (.list il) (.list ml) = .ok mid ∧
      convert (lead ++ mshape) (fun p => (mid p).getD 0) (.list ml) (.list ol) = .ok back ∧
      ∀ s p q, Has ol s p → Has il s q → back p = some (x q) := by
  obtain ⟨pI, hI⟩ := stokes "I" (by simp)
  obtain ⟨pQ, hQ⟩ := stokes "Q" (by simp)
  obtain ⟨pU, hU⟩ := stokes "U" (by simp)
  obtain ⟨pV, hV⟩ := stokes "V" (by simp)
  obtain ⟨r1, r2, r3, r4⟩ := hermitian
  obtain ⟨mid, m0, m1, m2, m3, m4⟩ := stokes_values_circular (lead := lead) (x := x) hi hm
    hRR hRL hLR hLL nolin only ⟨_, _, hI⟩
  obtain ⟨back, b0, _, _, _, _, b1, b2, b3, b4⟩ := corr_values (lead := lead) (x := fun p => (mid p).getD 0) hm ho
    hI hQ hU hV
    (fun s p h => by
      have := outputs s p h
      simp only [List.mem_cons, List.not_mem_nil, or_false] at this ⊢
      tauto) ne
  refine ⟨mid, back, m0, b0, fun s p q hp hq => ?_⟩
  have hs := outputs s p hp
  simp only [List.mem_cons, List.not_mem_nil, or_false] at hs
  rcases hs with rfl | rfl | rfl | rfl
  · obtain rfl := has_unique hi hRR hq
    rw [b1 p hp, m1 _ hI, m4 _ hV]
    refine congrArg some (Complex.ext ?_ ?_) <;> simp [r1] <;> ring
  · obtain rfl := has_unique hi hRL hq
    rw [b2 p hp, m2 _ hQ, m3 _ hU]
    refine congrArg some (Complex.ext ?_ ?_) <;> simp [r3, r4]
  · obtain rfl := has_unique hi hLR hq
    rw [b3 p hp, m2 _ hQ, m3 _ hU]
    refine congrArg some (Complex.ext ?_ ?_) <;> simp [r3, r4]
  · obtain rfl := has_unique hi hLL hq
    rw [b4 p hp, m1 _ hI, m4 _ hV]
    refine congrArg some (Complex.ext ?_ ?_) <;> simp [r2] <;> ring

/-- **C44** An unpolarised source gives equal parallel hands and zero cross hands. -/
theorem C44_unpolarised (lead : List Nat) (x : List Nat → ℂ) (il ml : List Schema)
    (ires mres : List (String × List Nat)) (ishape mshape : List Nat)
    (hi : elementIndices (.list il) = .ok (ires, ishape)) (hm : elementIndices (.list ml) = .ok (mres, mshape))
    (pI pQ pU pV : List Nat) (hI : Has il "I" pI) (hQ : Has il "Q" pQ) (hU : Has il "U" pU) (hV : Has il "V" pV)
    (unpol : x pQ = 0 ∧ x pU = 0 ∧ x pV = 0)
    (only : ∀ s p, Has ml s p → s ∈ ["XX", "XY", "YX", "YY", "RR", "RL", "LR", "LL"]) (ne : ∃ s p, Has ml s p) :
    ∃ mid, convert (lead ++ ishape) x (.list il) (.list ml) = .ok mid ∧
      (∀ s p, Has ml s p → s ∈ ["XX", "YY", "RR", "LL"] → mid p = some (x pI)) ∧
      (∀ s p, Has ml s p → s ∈ ["XY", "YX", "RL", "LR"] → mid p = some 0) := by
  obtain ⟨mid, m0, m1, m2, m3, m4, m5, m6, m7, m8⟩ := corr_values (lead := lead) (x := x) hi hm hI hQ hU hV only ne
  obtain ⟨u1, u2, u3⟩ := unpol
  refine ⟨mid, m0, ?_, ?_⟩ <;> intro s p hp hs <;> simp only [List.mem_cons, List.not_mem_nil, or_false] at hs
  · rcases hs with rfl | rfl | rfl | rfl
    · rw [m1 p hp, u1, add_zero]
    · rw [m4 p hp, u1, sub_zero]
    · rw [m5 p hp, u3, add_zero]
    · rw [m8 p hp, u3, sub_zero]
  · rcases hs with rfl | rfl | rfl | rfl
    · rw [m2 p hp, u2, u3]; simp
    · rw [m3 p hp, u2, u3]; simp
    · rw [m6 p hp, u1, u2]; simp
    · rw [m7 p hp, u1, u2]; simp

/-- Non-vacuity of the round trips: flat Stokes, 2x2 linear correlations, Stokes in another order. -/
example : ∃ mid back, convert ([10] ++ [4]) (fun p => ((p.sum : ℝ) : ℂ))
      (.list [.str "I", .str "Q", .str "U", .str "V"])
      (.list [.list [.str "XX", .str "XY"], .list [.str "YX", .str "YY"]]) = .ok mid ∧
    convert ([10] ++ [2, 2]) (fun p => (mid p).getD 0) (.list [.list [.str "XX", .str "XY"], .list [.str "YX", .str "YY"]])
      (.list [.str "V", .str "I"]) = .ok back ∧ back [0] = some 3 := by
  have e1 : elementIndices (.list [.str "I", .str "Q", .str "U", .str "V"]) =
    .ok ([("I", [0]), ("Q", [1]), ("U", [2]), ("V", [3])], [4]) := rfl
  have e2 : elementIndices (.list [.list [.str "XX", .str "XY"], .list [.str "YX", .str "YY"]]) =
    .ok ([("XX", [0, 0]), ("XY", [0, 1]), ("YX", [1, 0]), ("YY", [1, 1])], [2, 2]) := rfl
  have e3 : elementIndices (.list [.str "V", .str "I"]) = .ok ([("V", [0]), ("I", [1])], [2]) := rfl
  have i1 := (C46_indices _ _ _ e1).1
  have i2 := (C46_indices _ _ _ e2).1
  have i3 := (C46_indices _ _ _ e3).1
  obtain ⟨mid, back, h1, h2, h3⟩ := C44_stokes_linear [10] (fun p => ((p.sum : ℝ) : ℂ)) _ _ _ _ _ _ _ _ _ e1 e2 e3
    (by
      intro s hs
      simp only [List.mem_cons, List.not_mem_nil, or_false] at hs
      rcases hs with rfl | rfl | rfl | rfl
      · exact ⟨[0], (i1 _ _).1 (by simp), Complex.ofReal_im _⟩
      · exact ⟨[1], (i1 _ _).1 (by simp), Complex.ofReal_im _⟩
      · exact ⟨[2], (i1 _ _).1 (by simp), Complex.ofReal_im _⟩
      · exact ⟨[3], (i1 _ _).1 (by simp), Complex.ofReal_im _⟩)
    (by
      intro s hs
      simp only [List.mem_cons, List.not_mem_nil, or_false] at hs
      rcases hs with rfl | rfl | rfl | rfl
      · exact ⟨[0, 0], (i2 _ _).1 (by simp)⟩
      · exact ⟨[0, 1], (i2 _ _).1 (by simp)⟩
      · exact ⟨[1, 0], (i2 _ _).1 (by simp)⟩
      · exact ⟨[1, 1], (i2 _ _).1 (by simp)⟩)
    (by
      intro s p h
      have := (i2 s p).2 h
      simp only [List.mem_cons, Prod.mk.injEq, List.not_mem_nil, or_false] at this ⊢
      tauto)
    (by
      intro s p h
      have := (i3 s p).2 h
      simp only [List.mem_cons, Prod.mk.injEq, List.not_mem_nil, or_false] at this ⊢
      tauto) ⟨"V", [0], (i3 _ _).1 (by simp)⟩
  refine ⟨mid, back, h1, h2, ?_⟩
  rw [h3 "V" [0] [3] ((i3 _ _).1 (by simp)) ((i1 _ _).1 (by simp))]
  simp

end Verif.ModelData
