/-
Lemmas about the source reductions.
-/
import Verif.Rime.Lemmas
import Verif.Rime.Model2
import Mathlib.Algebra.BigOperators.Intervals
import Mathlib.Algebra.BigOperators.Group.List.Basic

set_option autoImplicit false
set_option linter.unusedSectionVars false

namespace Verif.Rime

/-! ### the graph -/

theorem lrEntry_fst (ax i : Nat) (out : List Nat) :
    (lrEntry ax i out).1 = if (i : Int) = (ax : Int) - 1 then .final out else .inter i out := by
  unfold lrEntry
  simp only
  split <;> rfl

theorem lrEntry_snd (ax i : Nat) (out : List Nat) :
    (lrEntry ax i out).2 = ⟨if i = 0 then none else some (.inter (i - 1) out), i, out⟩ := by
  unfold lrEntry
  simp only
  by_cases h : (i : Int) = (ax : Int) - 1
  · rw [if_pos h]
  · rw [if_neg h]

theorem lrEntry_key_inj {ax i i' : Nat} {out out' : List Nat} (hi : i < ax) (hi' : i' < ax)
    (h : (lrEntry ax i out).1 = (lrEntry ax i' out').1) : i = i' ∧ out = out' := by
  rw [lrEntry_fst, lrEntry_fst] at h
  by_cases h1 : (i : Int) = (ax : Int) - 1 <;> by_cases h2 : (i' : Int) = (ax : Int) - 1
  · rw [if_pos h1, if_pos h2] at h
    exact ⟨by omega, LKey.final.inj h⟩
  · rw [if_pos h1, if_neg h2] at h
    cases h
  · rw [if_neg h1, if_pos h2] at h
    cases h
  · rw [if_neg h1, if_neg h2] at h
    exact LKey.inter.inj h

theorem mem_lrDict {ax : Nat} {outs : List Nat} {e : LKey × LTask} :
    e ∈ lrDict ax outs ↔ ∃ i < ax, ∃ out ∈ product outs, e = lrEntry ax i out := by
  unfold lrDict
  simp only [List.mem_flatMap, List.mem_range, List.mem_map]
  constructor
  · rintro ⟨i, hi, out, ho, rfl⟩; exact ⟨i, hi, out, ho, rfl⟩
  · rintro ⟨i, hi, out, ho, rfl⟩; exact ⟨i, hi, out, ho, rfl⟩

theorem lookup_entry {ax i : Nat} {outs out : List Nat} (hi : i < ax) (ho : out ∈ product outs) :
    lookup (lrDict ax outs) (lrEntry ax i out).1 = some (lrEntry ax i out).2 := by
  unfold lookup
  cases hf : (lrDict ax outs).find? fun e => e.1 = (lrEntry ax i out).1 with
  | none =>
    have := List.find?_eq_none.1 hf (lrEntry ax i out) (mem_lrDict.2 ⟨i, hi, out, ho, rfl⟩)
    simp at this
  | some e =>
    have h1 : e.1 = (lrEntry ax i out).1 := by
      have := List.find?_some hf
      simpa using this
    obtain ⟨i', hi', out', _, rfl⟩ := mem_lrDict.1 (List.mem_of_find?_eq_some hf)
    obtain ⟨rfl, rfl⟩ := lrEntry_key_inj hi' hi h1
    rfl

/-- The chain of calls: the first block gets nothing, each later block the value of its predecessor. -/
def chain {W : Type*} (func : Option W → Nat → List Nat → Except PyErr W) (out : List Nat) :
    Nat → Except PyErr W
  | 0 => func none 0 out
  | i + 1 => match chain func out i with
    | .error e => .error e
    | .ok v => func (some v) (i + 1) out

theorem lrEval_entry {W : Type*} (func : Option W → Nat → List Nat → Except PyErr W)
    {ax : Nat} {outs out : List Nat} (ho : out ∈ product outs) (i : Nat) (hi : i < ax) (fuel : Nat)
    (hfuel : i < fuel) :
    lrEval (lrDict ax outs) func fuel (lrEntry ax i out).1 = chain func out i := by
  induction i generalizing fuel with
  | zero =>
    obtain ⟨n, rfl⟩ : ∃ n, fuel = n + 1 := ⟨fuel - 1, by omega⟩
    unfold lrEval
    rw [lookup_entry hi ho, lrEntry_snd]
    rfl
  | succ i ih =>
    obtain ⟨n, rfl⟩ : ∃ n, fuel = n + 1 := ⟨fuel - 1, by omega⟩
    have hkey : (lrEntry ax i out).1 = .inter i out := by
      rw [lrEntry_fst, if_neg (by omega)]
    have hih := ih (by omega) n (by omega)
    rw [hkey] at hih
    unfold lrEval
    rw [lookup_entry hi ho]
    have ht : (lrEntry ax (i + 1) out).2 = ⟨some (.inter i out), i + 1, out⟩ := lrEntry_snd _ _ _
    rw [ht]
    simp only [chain]
    rw [hih]
    try (cases chain func out i <;> rfl)

theorem lrEntry_last {ax : Nat} (hax : 0 < ax) (out : List Nat) :
    (lrEntry ax (ax - 1) out).1 = .final out := by
  rw [lrEntry_fst, if_pos (by omega)]

theorem length_product (ns : List Nat) : (product ns).length = ns.prod := by
  induction ns with
  | nil => rfl
  | cons n ns ih => simp [product, List.length_flatMap, ih]

theorem mem_product {ns out : List Nat} : out ∈ product ns ↔ List.Forall₂ (· < ·) out ns := by
  induction ns generalizing out with
  | nil => simp [product]
  | cons n ns ih =>
    simp only [product, List.mem_flatMap, List.mem_range, List.mem_map]
    constructor
    · rintro ⟨i, hi, o, ho, rfl⟩
      exact List.Forall₂.cons hi (ih.1 ho)
    · rintro (_ | ⟨h1, h2⟩)
      exact ⟨_, h1, _, ih.2 h2, rfl⟩

theorem lrLen_eq (ns : List Nat) : lrLen ns = ns.prod := by
  unfold lrLen
  have h : ∀ (l : List Nat) (a : Nat), l.foldl (· * ·) a = a * l.prod := by
    intro l
    induction l with
    | nil => intro a; simp
    | cons n l ih => intro a; rw [List.foldl_cons, ih, List.prod_cons, mul_assoc]
  rw [h, one_mul]

theorem nodup_product (ns : List Nat) : (product ns).Nodup := by
  induction ns with
  | nil => simp [product]
  | cons n ns ih =>
    rw [product, List.nodup_flatMap]
    constructor
    · intro i _
      exact ih.map fun a b h => by simpa using h
    · refine List.nodup_range.imp_of_mem ?_
      intro a b _ _ hab
      simp only [Function.onFun, List.disjoint_left, List.mem_map]
      rintro l ⟨l1, _, rfl⟩ ⟨l2, _, h⟩
      simp only [List.cons.injEq] at h
      exact hab h.1.symm

theorem nodup_keys (ax : Nat) (outs : List Nat) : ((lrDict ax outs).map Prod.fst).Nodup := by
  unfold lrDict
  rw [List.map_flatMap, List.nodup_flatMap]
  constructor
  · intro i hi
    rw [List.mem_range] at hi
    rw [List.map_map]
    refine (nodup_product outs).map_on ?_
    intro a _ b _ h
    exact (lrEntry_key_inj hi hi h).2
  · refine List.nodup_range.imp_of_mem ?_
    intro a b ha hb hab
    rw [List.mem_range] at ha hb
    simp only [Function.onFun, List.disjoint_left, List.mem_map]
    rintro l ⟨_, ⟨l1, _, rfl⟩, rfl⟩ ⟨_, ⟨l2, _, rfl⟩, h⟩
    exact hab (lrEntry_key_inj hb ha h).1.symm

theorem length_lrDict (ax : Nat) (outs : List Nat) : (lrDict ax outs).length = ax * outs.prod := by
  simp [lrDict, List.length_flatMap, length_product]

/-! ### sums over blocks -/

theorem srcOff_succ {chunks : List Nat} {i : Nat} (hi : i < chunks.length) :
    srcOff chunks (i + 1) = srcOff chunks i + chunks.getD i 0 := by
  unfold srcOff
  rw [List.take_succ_eq_append_getElem hi, List.sum_append, List.sum_singleton]
  simp [hi]

theorem sum_blocks {M : Type*} [AddCommMonoid M] (F : Nat → M) (chunks : List Nat) (i : Nat)
    (hi : i ≤ chunks.length) :
    ∑ j ∈ Finset.range i, ∑ s ∈ Finset.range (chunks.getD j 0), F (srcOff chunks j + s) =
      ∑ s ∈ Finset.range (srcOff chunks i), F s := by
  induction i with
  | zero => simp [srcOff]
  | succ i ih =>
    rw [Finset.sum_range_succ, ih (by omega), srcOff_succ (by omega), Finset.sum_range_add]

section reduce
variable {V R : Type*} [Ring R] [StarRing R] {k : Kernel V} {φ : V → R}
  {chunks : List Nat} {nrow nchan : Nat} {time ant1 ant2 : Nat → Nat} {tmin : Nat} {x : Terms V}

/-- The contribution of source `s` to one row and channel. -/
def srcTerm (φ : V → R) (time ant1 ant2 : Nat → Nat) (tmin : Nat) (x : Terms V) (r f s : Nat) : R :=
  ((x.ddeAt φ (time r - tmin) (ant1 r) (ant2 r) f).elim 1 fun e => e.1 s) *
  ((x.cohAt φ r f).elim 1 fun x => x s) *
  star ((x.ddeAt φ (time r - tmin) (ant1 r) (ant2 r) f).elim 1 fun e => e.2 s)

/-- The sky part of the RIME is a sum of source contributions. -/
theorem rime_sky (hx : x.coh.isSome ∨ x.dde.isSome) (nsrc r f : Nat) (B : Option R) (G : Option (R × R)) :
    rime nsrc (x.ddeAt φ (time r - tmin) (ant1 r) (ant2 r) f) (x.cohAt φ r f) B G =
      (G.elim 1 fun g => g.1) * (B.getD 0 +
        ∑ s ∈ Finset.range nsrc, srcTerm φ time ant1 ant2 tmin x r f s) * star (G.elim 1 fun g => g.2) := by
  unfold rime srcTerm
  rw [if_neg]
  rintro ⟨h1, h2⟩
  unfold Terms.ddeAt at h1
  unfold Terms.cohAt at h2
  cases hd : x.dde <;> cases hc : x.coh <;> simp_all

theorem predictBlock_value (h : Laws k φ) (hm : IsMin nrow time tmin)
    (hx : x.coh.isSome ∨ x.dde.isSome) (b : Option (Nat → Nat → V)) (i : Nat) :
    ∃ out, predictBlock k chunks nrow nchan time ant1 ant2 x b i = .ok out ∧
      ∀ r < nrow, ∀ f < nchan, φ (out r f) = ((b.map fun b => φ (b r f)).getD 0) +
        ∑ s ∈ Finset.range (chunks.getD i 0),
          srcTerm φ time ant1 ant2 tmin x r f (srcOff chunks i + s) := by
  have hx' : (x.dropSources (srcOff chunks i)).coh.isSome ∨ (x.dropSources (srcOff chunks i)).dde.isSome := by
    simpa [Terms.dropSources] using hx
  obtain ⟨out, h1, h2⟩ := predict_value (k := k) (φ := φ) h (nsrc := chunks.getD i 0) (nchan := nchan)
    (ant1 := ant1) (ant2 := ant2) hm
    (x := { x.dropSources (srcOff chunks i) with die := none, bvis := b })
    (by rcases hx' with h | h
        · exact Or.inr (Or.inl h)
        · exact Or.inl h)
  refine ⟨out, h1, fun r hr f hf => ?_⟩
  rw [h2 r hr f hf, rime_sky (x := { x.dropSources (srcOff chunks i) with die := none, bvis := b }) hx']
  simp only [Terms.dieAt, Terms.bvisAt, Option.map_none, Option.elim_none, star_one, one_mul, mul_one]
  congr 1
  refine Finset.sum_congr rfl fun s _ => ?_
  simp only [srcTerm, Terms.ddeAt, Terms.cohAt, Terms.dropSources, Option.map_map]
  cases x.dde <;> cases x.coh <;> rfl

theorem chain_value (h : Laws k φ) (hm : IsMin nrow time tmin)
    (hx : x.coh.isSome ∨ x.dde.isSome) (out : List Nat) (i : Nat) (hi : i < chunks.length) :
    ∃ v, chain (fun bvis i _ => predictBlock k chunks nrow nchan time ant1 ant2 x bvis i) out i = .ok v ∧
      ∀ r < nrow, ∀ f < nchan, φ (v r f) =
        ∑ s ∈ Finset.range (srcOff chunks (i + 1)), srcTerm φ time ant1 ant2 tmin x r f s := by
  induction i with
  | zero =>
    obtain ⟨v, h1, h2⟩ := predictBlock_value (chunks := chunks) (nchan := nchan) (ant1 := ant1) (ant2 := ant2)
      h hm hx none 0
    refine ⟨v, h1, fun r hr f hf => ?_⟩
    rw [h2 r hr f hf, srcOff_succ hi]
    simp [srcOff]
  | succ i ih =>
    obtain ⟨v, h1, h2⟩ := ih (by omega)
    obtain ⟨w, h3, h4⟩ := predictBlock_value (chunks := chunks) (nchan := nchan) (ant1 := ant1) (ant2 := ant2)
      h hm hx (some v) (i + 1)
    refine ⟨w, ?_, fun r hr f hf => ?_⟩
    · simp only [chain]
      rw [h1]
      exact h3
    · rw [h4 r hr f hf, srcOff_succ hi, Finset.sum_range_add]
      simp only [Option.map_some, Option.getD_some]
      rw [h2 r hr f hf]

theorem srcOff_length (chunks : List Nat) : srcOff chunks chunks.length = chunks.sum := by
  simp [srcOff]

theorem linear_value (h : Laws k φ) (hm : IsMin nrow time tmin) (hx : x.coh.isSome ∨ x.dde.isSome)
    (hc : chunks ≠ []) {outBlocks out : List Nat} (ho : out ∈ product outBlocks) :
    ∃ v, linearReduction k chunks nrow nchan time ant1 ant2 x outBlocks out = .ok v ∧
      ∀ r < nrow, ∀ f < nchan, φ (v r f) =
        ∑ s ∈ Finset.range chunks.sum, srcTerm φ time ant1 ant2 tmin x r f s := by
  have hpos : 0 < chunks.length := List.length_pos_iff.2 hc
  obtain ⟨v, h1, h2⟩ := chain_value (chunks := chunks) (nchan := nchan) (ant1 := ant1) (ant2 := ant2)
    h hm hx out (chunks.length - 1) (by omega)
  refine ⟨v, ?_, ?_⟩
  · unfold linearReduction
    rw [← lrEntry_last hpos, lrEval_entry _ ho _ (by omega) _ (by omega)]
    exact h1
  · rw [show chunks.length - 1 + 1 = chunks.length by omega, srcOff_length] at h2
    exact h2

theorem tree_value (h : Laws k φ) {blk : Nat → Except PyErr (Nat → Nat → V)} {g : Nat → Nat → Nat → R}
    (tree : SumTree)
    (hb : ∀ i ∈ tree.leaves, ∃ v, blk i = .ok v ∧ ∀ r < nrow, ∀ f < nchan, φ (v r f) = g i r f) :
    ∃ v, tree.eval k blk = .ok v ∧
      ∀ r < nrow, ∀ f < nchan, φ (v r f) = (tree.leaves.map fun i => g i r f).sum := by
  induction tree with
  | leaf i =>
    obtain ⟨v, h1, h2⟩ := hb i (by simp [SumTree.leaves])
    exact ⟨v, h1, fun r hr f hf => by rw [h2 r hr f hf]; simp [SumTree.leaves]⟩
  | node l r ihl ihr =>
    obtain ⟨a, h1, h2⟩ := ihl fun i hi => hb i (by simp [SumTree.leaves, hi])
    obtain ⟨b, h3, h4⟩ := ihr fun i hi => hb i (by simp [SumTree.leaves, hi])
    refine ⟨fun r f => k.addVis (b r f) (a r f), ?_, fun r hr f hf => ?_⟩
    · simp only [SumTree.eval]
      rw [h1, h3]
    · rw [h.addVis, h2 r hr f hf, h4 r hr f hf]
      simp [SumTree.leaves]

theorem sum_map_range {M : Type*} [AddCommMonoid M] (g : Nat → M) (n : Nat) :
    ((List.range n).map g).sum = ∑ i ∈ Finset.range n, g i := by
  induction n with
  | zero => rfl
  | succ n ih => rw [List.range_succ, List.map_append, List.sum_append, ih, Finset.sum_range_succ]; simp

theorem parallel_value (h : Laws k φ) (hm : IsMin nrow time tmin) (hx : x.coh.isSome ∨ x.dde.isSome)
    {tree : SumTree} (ht : tree.leaves.Perm (List.range chunks.length)) :
    ∃ v, parallelReduction k chunks nrow nchan time ant1 ant2 x tree = .ok v ∧
      ∀ r < nrow, ∀ f < nchan, φ (v r f) =
        ∑ s ∈ Finset.range chunks.sum, srcTerm φ time ant1 ant2 tmin x r f s := by
  obtain ⟨v, h1, h2⟩ := tree_value (nrow := nrow) (nchan := nchan) h
    (blk := fun i => predictBlock k chunks nrow nchan time ant1 ant2 x none i)
    (g := fun i r f => ∑ s ∈ Finset.range (chunks.getD i 0),
      srcTerm φ time ant1 ant2 tmin x r f (srcOff chunks i + s)) tree (by
      intro i _
      obtain ⟨v, h1, h2⟩ := predictBlock_value (chunks := chunks) (nchan := nchan) (ant1 := ant1)
        (ant2 := ant2) h hm hx none i
      exact ⟨v, h1, fun r hr f hf => by rw [h2 r hr f hf]; simp⟩)
  refine ⟨v, h1, fun r hr f hf => ?_⟩
  rw [h2 r hr f hf, (ht.map _).sum_eq, sum_map_range]
  rw [sum_blocks (fun s => srcTerm φ time ant1 ant2 tmin x r f s) chunks _ le_rfl, srcOff_length]

/-- A strategy is admissible: the output block exists, resp. the tree has every block once. -/
def Strategy.Ok (chunks : List Nat) : Strategy → Prop
  | .linear outBlocks out => out ∈ product outBlocks
  | .parallel tree => tree.leaves.Perm (List.range chunks.length)

theorem dask_value (h : Laws k φ) (hm : IsMin nrow time tmin)
    (hx : x.dde.isSome ∨ x.coh.isSome ∨ x.die.isSome) (hc : chunks ≠ []) {st : Strategy} (hst : st.Ok chunks) :
    ∃ v, daskPredict k chunks nrow nchan time ant1 ant2 x st = .ok v ∧
      ∀ r < nrow, ∀ f < nchan, φ (v r f) =
        rime chunks.sum (x.ddeAt φ (time r - tmin) (ant1 r) (ant2 r) f) (x.cohAt φ r f) (x.bvisAt φ r f)
          (x.dieAt φ (time r - tmin) (ant1 r) (ant2 r) f) := by
  unfold daskPredict
  rw [if_neg (by
    obtain ⟨dde, coh, die, bvis⟩ := x
    cases dde <;> cases coh <;> cases die <;> simp_all)]
  by_cases hs : x.coh.isSome ∨ x.dde.isSome
  · have hred : ∃ v, skySum k chunks nrow nchan time ant1 ant2 x st = .ok v ∧
      ∀ r < nrow, ∀ f < nchan, φ (v r f) =
        ∑ s ∈ Finset.range chunks.sum, srcTerm φ time ant1 ant2 tmin x r f s := by
      cases st with
      | linear outBlocks out => exact linear_value h hm hs hc hst
      | parallel tree => exact parallel_value h hm hs hst
    obtain ⟨v, hv, hval⟩ := hred
    rw [hv]
    have hcond : (x.coh.isSome || x.dde.isSome) = true := by simpa using hs
    simp only [hcond, if_true]
    cases hdie : x.die with
    | none =>
      cases hbv : x.bvis with
      | none =>
        refine ⟨v, rfl, fun r hr f hf => ?_⟩
        rw [hval r hr f hf, rime_sky hs]
        simp [Terms.dieAt, Terms.bvisAt, hdie, hbv]
      | some b =>
        obtain ⟨w, h1, h2⟩ := predict_value h (nsrc := 0) (nchan := nchan) (ant1 := ant1) (ant2 := ant2) hm
          (x := ⟨none, none, none, some fun r f => k.addVis (v r f) (b r f)⟩)
          (Or.inr (Or.inr (Or.inr rfl)))
        refine ⟨w, h1, fun r hr f hf => ?_⟩
        rw [h2 r hr f hf, rime_sky hs]
        simp [rime, Terms.ddeAt, Terms.cohAt, Terms.bvisAt, Terms.dieAt, hdie, hbv, h.addVis, hval r hr f hf]
    | some g =>
      obtain ⟨g1, g2⟩ := g
      cases hbv : x.bvis with
      | none =>
        obtain ⟨w, h1, h2⟩ := predict_value h (nsrc := 0) (nchan := nchan) (ant1 := ant1) (ant2 := ant2) hm
          (x := ⟨none, none, some (g1, g2), some v⟩)
          (Or.inr (Or.inr (Or.inr rfl)))
        refine ⟨w, h1, fun r hr f hf => ?_⟩
        rw [h2 r hr f hf, rime_sky hs]
        simp [rime, Terms.ddeAt, Terms.cohAt, Terms.bvisAt, Terms.dieAt, hdie, hbv, hval r hr f hf]
      | some b =>
        obtain ⟨w, h1, h2⟩ := predict_value h (nsrc := 0) (nchan := nchan) (ant1 := ant1) (ant2 := ant2) hm
          (x := ⟨none, none, some (g1, g2), some fun r f => k.addVis (v r f) (b r f)⟩)
          (Or.inr (Or.inr (Or.inr rfl)))
        refine ⟨w, h1, fun r hr f hf => ?_⟩
        rw [h2 r hr f hf, rime_sky hs]
        simp [rime, Terms.ddeAt, Terms.cohAt, Terms.bvisAt, Terms.dieAt, hdie, hbv, h.addVis, hval r hr f hf]
  · have hcoh : x.coh = none := by
      cases hcc : x.coh with
      | none => rfl
      | some _ => exact absurd (Or.inl (by rw [hcc]; rfl)) hs
    have hdde : x.dde = none := by
      cases hcc : x.dde with
      | none => rfl
      | some _ => exact absurd (Or.inr (by rw [hcc]; rfl)) hs
    obtain ⟨g, hg⟩ : ∃ g, x.die = some g := by
      rcases hx with h | h | h
      · rw [hdde] at h; cases h
      · rw [hcoh] at h; cases h
      · exact Option.isSome_iff_exists.1 h
    simp only [hcoh, hdde, Option.isSome_none, Bool.or_self, Bool.false_eq_true, if_false, hg]
    obtain ⟨w, h1, h2⟩ := predict_value h (nsrc := 0) (nchan := nchan) (ant1 := ant1) (ant2 := ant2) hm
      (x := ⟨none, none, some g, x.bvis⟩) (Or.inr (Or.inr (Or.inl rfl)))
    refine ⟨w, h1, fun r hr f hf => ?_⟩
    rw [h2 r hr f hf]
    simp [rime, Terms.ddeAt, Terms.cohAt, Terms.bvisAt, Terms.dieAt, hcoh, hdde, hg]

end reduce

end Verif.Rime
