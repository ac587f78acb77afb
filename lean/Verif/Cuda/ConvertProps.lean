/-
C121: conversions of coherencies on a GPU.
-/
import Verif.Cuda.ConvertPlanLemmas

set_option autoImplicit false

namespace Verif.Cuda

open Verif.ModelData

theorem block_pos : 0 < convertBlock.x ∧ 0 < convertBlock.y ∧ 0 < convertBlock.z := by simp [convertBlock]

section
variable {il ol : List Schema} {ires ores : List (String × List Nat)} {ishape oshape : List Nat}

theorem kind_of_match {t : ConvType} (h : KindsMatch t ol) {s : String} {p : List Nat} (hs : Has ol s p) :
    kindOf s = some (if t.isComplex then .real else .complex) := by
  rcases h with ⟨ht, h⟩ | ⟨ht, h⟩
  · rw [ht]
    have := h s p hs
    simp only [kindOf, if_pos this]; rfl
  · rw [ht]
    have := h s p hs
    have hn : s ∉ corrNames := by
      simp only [stokesNames, List.mem_cons, List.not_mem_nil, or_false] at this
      rcases this with rfl | rfl | rfl | rfl <;> decide
    simp only [kindOf, if_neg hn, if_pos this]; rfl

theorem known_of_match {t : ConvType} (h : KindsMatch t ol) {s : String} {p : List Nat} (hs : Has ol s p) : s ∈ knownOutputs := by
  rcases h with ⟨_, h⟩ | ⟨_, h⟩
  · have := h s p hs
    simp only [corrNames, List.mem_cons, List.not_mem_nil, or_false] at this
    rcases this with rfl | rfl | rfl | rfl | rfl | rfl | rfl | rfl <;> decide
  · have := h s p hs
    simp only [stokesNames, List.mem_cons, List.not_mem_nil, or_false] at this
    rcases this with rfl | rfl | rfl | rfl <;> decide

/-- An array can be reshaped. -/
theorem reshaped_exists (a : GArr ℂ) (shape : List Nat) : ∃ r, Reshaped a shape r := by
  by_cases hs : a.shape = shape
  · exact ⟨a, hs, fun _ _ => rfl, fun h => h, fun _ => rfl⟩
  · refine ⟨a.reshape shape, rfl, fun j hj => ?_, fun _ => contiguous_dense _ _, fun h => absurd h hs⟩
    have hq := isIdx_unravel hj
    have : offset (GArr.dense shape fun k => a.flat k.toNat).strides _ = ravel shape _ :=
      contiguous_dense shape (fun k => a.flat k.toNat) _ hq
    unfold GArr.flat GArr.at
    change (GArr.dense shape fun k => a.flat k.toNat).mem (0 + _) = _
    rw [show (GArr.reshape a shape).shape = shape from rfl,
      show (GArr.reshape a shape).strides = (GArr.dense shape fun k => a.flat k.toNat).strides from rfl, this,
      ravel_unravel hj, zero_add]
    rfl

/-- The kernel that is generated, and the mapping of the CPU. -/
theorem plan_ok (generated : Bool) {t : ConvType} (lead : List Nat) (hi : elementIndices (.list il) = .ok (ires, ishape))
    (ho : elementIndices (.list ol) = .ok (ores, oshape)) (hid : SameDepth il ishape) (hod : SameDepth ol oshape)
    (hkm : KindsMatch t ol) (ht : t ≠ .other) (havail : Available il ol) (hne : ∃ s p, Has ol s p)
    (heq : size ishape = size oshape) (hpow : ∃ k, size ishape = 2 ^ k) :
    ∃ (es : List (OutKind × MapEntry)) (cs : List MapEntry), convertPlan generated t (lead ++ ishape) (.list il) (.list ol) =
        .ok ⟨if t.isComplex then .real else .complex, es.map Prod.snd, ishape, oshape⟩ ∧
      (∀ x, convert (lead ++ ishape) x (.list il) (.list ol) = .ok (runMapping x cs)) ∧
      es.length = ores.length ∧ cs.length = ores.length ∧
      (∀ k (hk : k < ores.length) (h1 : k < es.length) (h2 : k < cs.length), SameEntry ores[k] es[k] cs[k]) ∧
      (∀ e ∈ es, e.1 = if t.isComplex then .real else .complex) ∧
      ∀ e ∈ es, IsIdx ishape e.2.1 ∧ IsIdx ishape e.2.2.1 ∧ IsIdx oshape e.2.2.2.1 := by
  have io := C46_indices il ires ishape hi
  have oo := C46_indices ol ores oshape ho
  have hconv : ∀ x, ∃ out, convert (lead ++ ishape) x (.list il) (.list ol) = .ok out := fun x => by
    obtain ⟨out, h, _⟩ := C45_ok lead x il ol ires ores ishape oshape hi ho (fun s p h => known_of_match hkm h) hne havail
    exact ⟨out, h⟩
  cases hm : gpuMapping ires ores [] with
  | error e =>
    exfalso
    obtain ⟨out, h⟩ := hconv fun _ => 0
    rw [convert_eq hi ho] at h
    rcases gpuMapping_error hm false [] with ⟨_, h'⟩ | ⟨_, e', h', _⟩
    · rw [h'] at h; cases h
    · rw [h'] at h; cases h
  | ok es =>
    obtain ⟨es', cs, h1, h2, h3, h4, h5⟩ := gpuMapping_ok hm false []
    obtain rfl : es = es' := by simpa using h1
    have hpos : 0 < ores.length := by
      obtain ⟨s, p, hs⟩ := hne
      exact List.length_pos_of_mem ((oo.1 s p).2 hs)
    have hkind : ∀ e ∈ es, e.1 = if t.isComplex then .real else .complex := by
      intro e he
      obtain ⟨k, hk, rfl⟩ := List.getElem_of_mem he
      have hk' : k < ores.length := by omega
      have hs := h5 k hk' hk (by omega)
      have hh : Has ol ores[k].1 ores[k].2 := (oo.1 _ _).1 (List.getElem_mem hk')
      have := hs.1
      rw [kind_of_match hkm hh] at this
      exact (Option.some.inj this).symm
    have hcs : ∀ x, convert (lead ++ ishape) x (.list il) (.list ol) = .ok (runMapping x cs) := by
      intro x
      rw [convert_eq hi ho, h2]
      have : (([] : List MapEntry) ++ cs).isEmpty = false := by
        rw [List.nil_append]
        cases cs with
        | nil => simp only [List.length_nil] at h4; omega
        | cons _ _ => rfl
      simp only [this]; simp
    have hidx : ∀ e ∈ es, IsIdx ishape e.2.1 ∧ IsIdx ishape e.2.2.1 ∧ IsIdx oshape e.2.2.2.1 := by
      intro e he
      obtain ⟨k, hk, rfl⟩ := List.getElem_of_mem he
      have hk' : k < ores.length := by omega
      have hs := h5 k hk' hk (by omega)
      obtain ⟨_, e1, e2, _, e4, _⟩ := hs
      have hmem : cs[k] ∈ cs := List.getElem_mem _
      obtain ⟨m, hmm⟩ : ∃ m, convertSetup (lead ++ ishape) (.list il) (.list ol) = .ok m := by
        have := hcs fun _ => 0
        unfold convert at this
        cases hc : convertSetup (lead ++ ishape) (.list il) (.list ol) with
        | error e => rw [hc] at this; cases this
        | ok m => exact ⟨m, rfl⟩
      have hmc : m.1 = cs := by
        have hd : (lead ++ ishape).drop ((lead ++ ishape).length - ishape.length) = ishape := by simp
        simp only [convertSetup, hi, ho, bind, Except.bind, hd, ne_eq, not_true_eq_false, if_false, h2, pure, Except.pure] at hmm
        have : (([] : List MapEntry) ++ cs).isEmpty = false := by
          rw [List.nil_append]
          cases cs with
          | nil => simp only [List.length_nil] at h4; omega
          | cons _ _ => rfl
        simp only [this] at hmm
        obtain rfl := Except.ok.inj hmm
        simp
      obtain ⟨⟨s1, hs1⟩, ⟨s2, hs2⟩⟩ := convertSetup_reads hi hmm cs[k] (by rw [hmc]; exact hmem)
      rw [e1] at hs1
      rw [e2] at hs2
      refine ⟨isIdx_of_mem hi hs1 (hid _ _ ((io.1 _ _).1 hs1)), isIdx_of_mem hi hs2 (hid _ _ ((io.1 _ _).1 hs2)), ?_⟩
      rw [e4]
      exact isIdx_of_mem ho (List.getElem_mem hk') (hod _ _ ((oo.1 _ _).1 (List.getElem_mem hk')))
    refine ⟨es, cs, ?_, hcs, h3, h4, h5, hkind, hidx⟩
    obtain ⟨k, hk⟩ := hpow
    obtain ⟨y, hy, _⟩ := Util.Cycles.C91_transpose k (fun _ _ => ())
    have hd : (lead ++ ishape).drop ((lead ++ ishape).length - ishape.length) = ishape := by simp
    have hany : es.any (fun e => e.2.1.length != ishape.length || e.2.2.1.length != ishape.length ||
        e.2.2.2.1.length != oshape.length) = false := by
      rw [List.any_eq_false]
      intro e he
      obtain ⟨a1, a2, a3⟩ := hidx e he
      simp [List.Forall₂.length_eq a1, List.Forall₂.length_eq a2, List.Forall₂.length_eq a3]
    cases hes : es with
    | nil => rw [hes] at h3; simp only [List.length_nil] at h3; omega
    | cons e0 rest =>
      rw [hes] at hany hkind hm
      obtain ⟨k0, m0⟩ := e0
      have hk0 : k0 = if t.isComplex then .real else .complex := hkind _ List.mem_cons_self
      have hany2 : rest.any (fun e => e.1 != k0) = false := by
        rw [List.any_eq_false]
        intro e he
        simp [hkind e (List.mem_cons_of_mem _ he), hk0]
      simp only [convertPlan, hi, ho, hd, bind, Except.bind, hm, bne_self_eq_false, Bool.and_false, Bool.false_eq_true, if_false,
        hany2, heq, hany, ht, pure, Except.pure]
      rw [← heq, hk, hy]
      simp [hk0]

end

attribute [local irreducible] Dim3.all LaunchOver convertBlock

set_option linter.constructorNameAsVariable false in
/-- **C121.** For contiguous input whose schema has a power of two of elements, as many as the outputs, all at one depth: real
Stokes parameters are converted to correlations, and complex correlations to Stokes parameters, as on the CPU. Whatever order
the threads run in, every element of the result is what `convert` gives for that position of the leading axes. There must be
something to convert, and fewer than 2^31 numbers (counting those read beyond the end of the last group of threads). -/
theorem C121_partial (generated : Bool) (t : ConvType) (a : GArr ℂ) (lead : List Nat) (il ol : List Schema)
    (ires ores : List (String × List Nat)) (ishape oshape : List Nat)
    (hi : elementIndices (.list il) = .ok (ires, ishape)) (ho : elementIndices (.list ol) = .ok (ores, oshape))
    (hid : SameDepth il ishape) (hod : SameDepth ol oshape) (hkm : KindsMatch t ol) (ht : t ≠ .other)
    (havail : Available il ol) (hne : ∃ s p, Has ol s p) (heq : size ishape = size oshape) (hpow : ∃ k, size ishape = 2 ^ k)
    (hshape : a.shape = lead ++ ishape) (hcont : a.Contiguous)
    (hreal : t.isComplex = false → ∀ i, IsIdx a.shape i → (a.at i).im = 0)
    (hlead : 0 < size lead) (hsmall : size ishape * (size lead + size ishape) ≤ 2 ^ 31) :
    (∃ r, ConvertGpu generated t a (.list il) (.list ol) r) ∧
    ∀ r, ConvertGpu generated t a (.list il) (.list ol) r → ∃ g, r = .ok g ∧ g.shape = lead ++ oshape ∧
      ∀ i, IsIdx lead i → ∃ cpu, convert a.shape (fun q => a.at (i ++ q)) (.list il) (.list ol) = .ok cpu ∧
        ∀ p, IsIdx oshape p → cpu p = some (g.at (i ++ p)) := by
  obtain ⟨es, cs, hplan, hconv, h3, h4, h5, hkind, hidx⟩ :=
    plan_ok generated lead hi ho hid hod hkm ht havail hne heq hpow
  have oo := C46_indices ol ores oshape ho
  obtain ⟨k, hk⟩ := hpow
  have hpos : 0 < 2 ^ k := Nat.two_pow_pos k
  have hko : size oshape = 2 ^ k := by rw [← heq, hk]
  have hk9 : k ≤ 9 := by
    have h12 : size oshape ≤ 12 := size_le ho hod knownOutputs fun s p h => known_of_match hkm h
    by_contra hlt
    have : 2 ^ 10 ≤ 2 ^ k := Nat.pow_le_pow_right (by decide) (by omega)
    omega
  have hcomp : compiles t (if t.isComplex then .real else .complex) = true := by
    unfold compiles
    cases t.isComplex <;> rfl
  have htake : a.shape.take (a.shape.length - ishape.length) = lead := by rw [hshape]; simp
  have hsize : size lead * size ishape = size a.shape := by rw [hshape, size_append]
  have hfits : Fits ⟨size lead, 1, 1⟩ convertBlock := by
    have hle : size lead ≤ size ishape * (size lead + size ishape) :=
      le_trans (Nat.le_add_right _ _) (Nat.le_mul_of_pos_left _ (by omega))
    unfold Fits
    simp only [show convertBlock.x = 512 by unfold convertBlock; rfl, show convertBlock.y = 1 by unfold convertBlock; rfl,
      show convertBlock.z = 1 by unfold convertBlock; rfl]
    exact ⟨⟨hlead, by omega⟩, ⟨by omega, by omega⟩, by omega, by omega⟩
  set P : ConvPlan := ⟨if t.isComplex then .real else .complex, es.map Prod.snd, ishape, oshape⟩ with hP
  -- outputs of entries are all the elements, once
  have hnd : (P.mapping.map fun e => ravel P.outShape e.2.2.1).Nodup := by
    have e1 : (P.mapping.map fun e => ravel P.outShape e.2.2.1) = (ores.map Prod.snd).map (ravel oshape) := by
      apply List.ext_getElem
      · simp [hP, h3]
      · intro j hj1 hj2
        have hj : j < ores.length := by simpa using hj2
        simp only [hP, List.getElem_map]
        rw [(h5 j hj (by omega) (by omega)).2.2.2.2.1]
    rw [e1]
    refine oo.2.2.map_on fun x hx y hy hxy => ?_
    obtain ⟨⟨s, p⟩, hp, rfl⟩ := List.mem_map.1 hx
    obtain ⟨⟨s', p'⟩, hp', rfl⟩ := List.mem_map.1 hy
    exact ravel_inj (isIdx_of_mem ho hp (hod _ _ ((oo.1 _ _).1 hp))) (isIdx_of_mem ho hp' (hod _ _ ((oo.1 _ _).1 hp'))) hxy
  have hentry : ∀ p, IsIdx oshape p → ∃ j, ∃ (hj : j < ores.length) (h1 : j < es.length) (h2 : j < cs.length),
      ores[j].2 = p ∧ SameEntry ores[j] es[j] cs[j] := by
    intro p hp
    obtain ⟨s, hs⟩ := mem_of_isIdx ho hod hp
    obtain ⟨j, hj, hjs⟩ := List.getElem_of_mem hs
    exact ⟨j, hj, by omega, by omega, by rw [hjs], h5 j hj (by omega) (by omega)⟩
  have hassign : ∀ (input junk : Nat → ℂ) p, IsIdx oshape p → ∃ j, ∃ (h1 : j < es.length) (h2 : j < cs.length),
      ores[j]?.map Prod.snd = some p ∧ cs[j].2.2.1 = p ∧ cs[j].1 = es[j].2.1 ∧ cs[j].2.1 = es[j].2.2.1 ∧
        SameFn es[j].1 es[j].2.2.2.2 cs[j].2.2.2 ∧
        assignRegs P input junk (ravel oshape p) =
          es[j].2.2.2.2 (input (ravel ishape es[j].2.1)) (input (ravel ishape es[j].2.2.1)) := by
    intro input junk p hp
    obtain ⟨j, hj, h1, h2, hp', _, e1, e2, e3, e4, e5⟩ := hentry p hp
    refine ⟨j, h1, h2, by rw [List.getElem?_eq_getElem hj, Option.map_some, hp'], by rw [e3, e4, hp'], e1, e2, e5, ?_⟩
    have := assign_value P input junk hnd (e := es[j].2) (List.mem_map.2 ⟨_, List.getElem_mem h1, rfl⟩)
    have hop : es[j].2.2.2.1 = p := by rw [e4, hp']
    rw [hop] at this
    exact this
  have hval : ∀ input input' junk junk' o, o < 2 ^ k → (∀ e < 2 ^ k, input e = input' e) →
      assignRegs P input junk o = assignRegs P input' junk' o := by
    intro input input' junk junk' o ho' hin
    have hp : IsIdx oshape (unravel oshape o) := isIdx_unravel (by omega)
    have hro : ravel oshape (unravel oshape o) = o := ravel_unravel (by omega)
    obtain ⟨j, h1, h2, hj, _, _, _, _, hv⟩ := hassign input junk _ hp
    have hv' := assign_value P input' junk' hnd (e := es[j].2) (List.mem_map.2 ⟨_, List.getElem_mem h1, rfl⟩)
    have hop : es[j].2.2.2.1 = unravel oshape o := by
      have h6 := (h5 j (by omega) h1 h2).2.2.2.2.1
      rw [List.getElem?_eq_getElem (by omega), Option.map_some, Option.some.injEq] at hj
      rw [h6, hj]
    rw [hop] at hv'
    rw [hro] at hv
    change assignRegs P input' junk' (ravel oshape (unravel oshape o)) = _ at hv'
    rw [hro] at hv'
    obtain ⟨a1, a2, _⟩ := hidx _ (List.getElem_mem h1)
    rw [hv, hv']
    have b1 := ravel_lt a1
    have b2 := ravel_lt a2
    rw [hin _ (by omega), hin _ (by omega)]
  have hgpu : ∀ r, ConvertGpu generated t a (.list il) (.list ol) r ↔ ∃ inputs, Reshaped a [size lead, size ishape] inputs ∧
      ((¬ inputs.Contiguous ∧ r = .error .assertionError) ∨
       (inputs.Contiguous ∧ compiles t P.kind = false ∧ r = .error .compileException) ∨
       (inputs.Contiguous ∧ compiles t P.kind = true ∧ ∃ junkIn junkOut out,
          LaunchOver (convertKernel P inputs junkIn junkOut) ⟨size lead, 1, 1⟩ convertBlock out ∧
          r = out.map fun o => .dense (lead ++ oshape) o)) := by
    intro r
    unfold ConvertGpu
    rw [hshape, hplan]
    dsimp only
    have e1 : (lead ++ ishape).take ((lead ++ ishape).length - ishape.length) = lead := by simp
    rw [e1, if_neg fun h => h (size_append _ _).symm]
  constructor
  · obtain ⟨inputs, hin⟩ := reshaped_exists a [size lead, size ishape]
    obtain ⟨r', hr'⟩ := launch_exists (convertKernel P inputs (fun _ _ => 0) fun _ _ => 0) ⟨size lead, 1, 1⟩ convertBlock
    exact ⟨_, (hgpu _).2 ⟨inputs, hin, Or.inr (Or.inr ⟨hin.2.2.1 hcont, hcomp, _, _, r', hr', rfl⟩)⟩⟩
  · intro r hr
    obtain ⟨inputs, ⟨hs1, hs2, hs3, _⟩, hcase⟩ := (hgpu r).1 hr
    have hic := hs3 hcont
    rcases hcase with ⟨h, _⟩ | ⟨_, h, _⟩ | ⟨_, _, junkIn, junkOut, r', hl, rfl⟩
    · exact absurd hic h
    · rw [hcomp] at h; cases h
    · obtain ⟨out, rfl, hrun⟩ := launch_ok block_pos.1 block_pos.2.1 block_pos.2.2 hfits hl
      refine ⟨_, rfl, rfl, fun i hi' => ⟨_, by rw [hshape]; exact hconv _, fun p hp => ?_⟩⟩
      have hrow := ravel_lt hi'
      have hflat : ∀ q, IsIdx ishape q → inputs.flatInt ((ravel lead i * 2 ^ k + ravel ishape q : Nat) : Int) = a.at (i ++ q) := by
        intro q hq
        have hq' := ravel_lt hq
        have hidx2 : IsIdx inputs.shape [ravel lead i, ravel ishape q] := by
          rw [hs1]
          exact List.Forall₂.cons hrow (List.Forall₂.cons hq' List.Forall₂.nil)
        have e1 : ravel inputs.shape [ravel lead i, ravel ishape q] = ravel lead i * 2 ^ k + ravel ishape q := by
          rw [hs1]; simp [ravel, size, hk]
        have e2 := stepOffset_ravel inputs hidx2 (by rw [hs1]; simp)
        rw [e1] at e2
        rw [e2, ← flat_ravel inputs hidx2, e1, hs2]
        · rw [← flat_ravel a (i := i ++ q) (by rw [hshape]; exact isIdx_append hi' hq)]
          congr 1
          rw [hshape, ravel_append hi', hk]
        · simp only [size, Nat.mul_one]
          rw [hk]
          have : (ravel lead i + 1) * 2 ^ k ≤ size lead * 2 ^ k := Nat.mul_le_mul_right _ hrow
          rw [Nat.add_mul] at this
          omega
      have hcell := convert_run (p := P) (inputs := inputs) (junkIn := junkIn) (junkOut := junkOut) (k := k) (n := size lead) hk hk9
        (by rw [hs1]; rfl) (by rw [← hk]; exact hsmall) hval hrun (row := ravel lead i) (o := ravel oshape p) hrow
        (by rw [← hko]; exact ravel_lt hp)
      have hat : (GArr.dense (lead ++ oshape) out).at (i ++ p) = out ((ravel lead i * 2 ^ k + ravel oshape p : Nat) : Int) := by
        unfold GArr.at
        rw [contiguous_dense (lead ++ oshape) out (i ++ p) (isIdx_append hi' hp)]
        change out (0 + _) = _
        rw [zero_add]
        change out ((ravel (lead ++ oshape) (i ++ p) : Nat) : Int) = _
        rw [ravel_append hi', hko]
      dsimp only
      rw [hat, hcell]
      obtain ⟨j, h1, h2, hj, hcp, e1, e2, hsame, hv⟩ := hassign
        (fun e => inputs.flatInt ((ravel lead i * 2 ^ k + e : Nat) : Int)) (fun _ => 0) p hp
      rw [hv]
      have hcnd : (cs.map fun e => e.2.2.1).Nodup := by
        have : cs.map (fun e => e.2.2.1) = ores.map Prod.snd := by
          apply List.ext_getElem
          · simp [h4]
          · intro m hm1 hm2
            have hm : m < ores.length := by simpa using hm2
            have h6 := h5 m hm (by omega) (by omega)
            simp only [List.getElem_map]
            rw [h6.2.2.2.1, h6.2.2.2.2.1]
        rw [this]; exact oo.2.2
      have hrm := runMapping_value (fun q => a.at (i ++ q)) hcnd (List.getElem_mem h2)
      rw [hcp] at hrm
      rw [hrm]
      obtain ⟨a1, a2, _⟩ := hidx _ (List.getElem_mem h1)
      rw [hflat _ a1, hflat _ a2, hsame, e1, e2]
      intro hkc
      have hkj := hkind _ (List.getElem_mem h1)
      rw [hkc] at hkj
      have htc : t.isComplex = false := by
        cases h : t.isComplex with
        | false => rfl
        | true => rw [h] at hkj; cases hkj
      exact ⟨hreal htc _ (by rw [hshape]; exact isIdx_append hi' a1), hreal htc _ (by rw [hshape]; exact isIdx_append hi' a2)⟩

/-! ### what is refused -/

theorem plan_only {generated : Bool} {t : ConvType} {shape : List Nat} {inS outS : Schema} {p : ConvPlan}
    (h : convertPlan generated t shape inS outS = .ok p) :
    ∃ ires ores es, elementIndices inS = .ok (ires, p.inShape) ∧ elementIndices outS = .ok (ores, p.outShape) ∧
      (generated = false → shape.drop (shape.length - p.inShape.length) = p.inShape) ∧ gpuMapping ires ores [] = .ok es ∧
      es ≠ [] ∧ (∀ e ∈ es, e.1 = p.kind) ∧ size p.inShape = size p.outShape ∧ t ≠ .other ∧
      (∀ e ∈ es, e.2.2.2.1.length = p.outShape.length) ∧ (∃ k, size p.inShape = 2 ^ k) ∧ p.mapping = es.map Prod.snd := by
  unfold convertPlan at h
  cases hi : elementIndices inS with
  | error e => rw [hi] at h; cases h
  | ok i =>
    cases ho : elementIndices outS with
    | error e => rw [hi, ho] at h; cases h
    | ok o =>
      simp only [hi, ho, bind, Except.bind] at h
      by_cases hd : (!generated && shape.drop (shape.length - i.2.length) != i.2) = true
      · rw [if_pos hd] at h; cases h
      rw [if_neg hd] at h
      cases hm : gpuMapping i.1 o.1 [] with
      | error e => rw [hm] at h; cases h
      | ok es =>
        simp only [hm, pure, Except.pure] at h
        cases hes : es with
        | nil => rw [hes] at h; cases h
        | cons e0 rest =>
          obtain ⟨kind, m0⟩ := e0
          simp only [hes] at h
          by_cases h1 : rest.any (fun e => e.1 != kind) = true
          · simp only [h1] at h; cases h
          by_cases h2 : (size i.2 != size o.2) = true
          · simp only [h1, h2] at h; cases h
          by_cases h3 : t = .other
          · simp only [h1, h2, h3] at h; cases h
          by_cases h4 : ((kind, m0) :: rest).any (fun e => e.2.1.length != i.2.length || e.2.2.1.length != i.2.length ||
              e.2.2.2.1.length != o.2.length) = true
          · simp only [h1, h2, h3, h4] at h; cases h
          simp only [h1, h2, h3, h4] at h
          cases hw : Util.Cycles.warpTranspose (size i.2) (fun _ _ => ()) with
          | error e => rw [hw] at h; cases h
          | ok y =>
            simp only [hw] at h
            obtain rfl := Except.ok.inj h
            refine ⟨i.1, o.1, es, rfl, rfl, ?_, hm, by rw [hes]; simp, ?_, by simpa using h2, h3, ?_, ?_, by rw [hes]⟩
            · intro hg
              simpa [hg] using hd
            · rw [hes]
              simp only [Bool.not_eq_true, List.any_eq_false, bne_iff_ne, ne_eq, not_not] at h1
              intro e he
              rcases List.mem_cons.1 he with rfl | he
              · rfl
              · simpa using h1 e he
            · rw [hes]
              intro e he
              have := (List.any_eq_false.1 (Bool.not_eq_true _ ▸ h4)) e he
              simp only [Bool.not_eq_true, Bool.or_eq_false_iff, bne_eq_false_iff_eq] at this
              exact this.2
            · by_contra hno
              rw [Util.Cycles.C91_reject _ (fun k hk => hno ⟨k, hk⟩)] at hw
              cases hw

theorem kindOf_some {s : String} {k : OutKind} (h : kindOf s = some k) :
    (k = .complex ∧ s ∈ corrNames) ∨ (k = .real ∧ s ∈ stokesNames) := by
  unfold kindOf at h
  by_cases h1 : s ∈ corrNames
  · rw [if_pos h1] at h
    exact Or.inl ⟨(Option.some.inj h).symm, h1⟩
  · rw [if_neg h1] at h
    by_cases h2 : s ∈ stokesNames
    · rw [if_pos h2] at h
      exact Or.inr ⟨(Option.some.inj h).symm, h2⟩
    · rw [if_neg h2] at h; cases h

/-- **C121.** An array is returned only if, unless a kernel for the same schemas and type has been generated before, the last
extents of the input are those of its schema; if the outputs are correlations and the input is real, or the outputs are Stokes
parameters and the input is complex, of a type known to CUDA; if they are all at one depth, can be computed from the inputs and
are as many as them, a power of two; and if there is anything to convert. Everything else raises an exception. -/
theorem C121_accepts_only (generated : Bool) (t : ConvType) (a : GArr ℂ) (il ol : List Schema) (g : GArr ℂ)
    (h : ConvertGpu generated t a (.list il) (.list ol) (.ok g)) :
    ∃ ires ores ishape oshape, elementIndices (.list il) = .ok (ires, ishape) ∧ elementIndices (.list ol) = .ok (ores, oshape) ∧
      (generated = false → ∃ lead, a.shape = lead ++ ishape) ∧ SameDepth ol oshape ∧ KindsMatch t ol ∧ t ≠ .other ∧
      Available il ol ∧ (∃ s p, Has ol s p) ∧ size ishape = size oshape ∧ (∃ k, size ishape = 2 ^ k) ∧ 0 < size a.shape := by
  unfold ConvertGpu at h
  cases hp : convertPlan generated t a.shape (.list il) (.list ol) with
  | error e => rw [hp] at h; cases h
  | ok p =>
    rw [hp] at h
    dsimp only at h
    obtain ⟨ires, ores, es, hi, ho, hd, hm, hes, hk, hsz, ht, hl, hpow, _⟩ := plan_only hp
    have io := C46_indices il ires p.inShape hi
    have oo := C46_indices ol ores p.outShape ho
    obtain ⟨es', cs, h1, h2, h3, h4, h5⟩ := gpuMapping_ok hm false []
    obtain rfl : es = es' := by simpa using h1
    by_cases hsize : size (a.shape.take (a.shape.length - p.inShape.length)) * size p.inShape ≠ size a.shape
    · rw [if_pos hsize] at h; cases h
    rw [if_neg hsize] at h
    push Not at hsize
    obtain ⟨inputs, _, ⟨_, h'⟩ | ⟨_, _, h'⟩ | ⟨_, hcomp, junkIn, junkOut, out, hlaunch, hr⟩⟩ := h
    · cases h'
    · cases h'
    have hentry : ∀ s q, Has ol s q → kindOf s = some p.kind ∧ q.length = p.outShape.length := by
      intro s q hs
      obtain ⟨j, hj, hjs⟩ := List.getElem_of_mem ((oo.1 s q).2 hs)
      have hj1 : j < es.length := by omega
      have h6 := h5 j hj hj1 (by omega)
      refine ⟨?_, ?_⟩
      · have := h6.1
        rw [hjs, hk _ (List.getElem_mem hj1)] at this
        exact this
      · have := hl _ (List.getElem_mem hj1)
        rw [h6.2.2.2.2.1, hjs] at this
        exact this
    refine ⟨ires, ores, p.inShape, p.outShape, hi, ho, ?_, fun s q hs => (hentry s q hs).2, ?_, ht, ?_, ?_, hsz, hpow, ?_⟩
    · intro hg
      refine ⟨a.shape.take (a.shape.length - p.inShape.length), ?_⟩
      conv_lhs => rw [← List.take_append_drop (a.shape.length - p.inShape.length) a.shape]
      rw [hd hg]
    · unfold compiles at hcomp
      rw [beq_iff_eq] at hcomp
      cases hkd : p.kind with
      | complex =>
        left
        refine ⟨by rw [hcomp, hkd]; rfl, fun s q hs => ?_⟩
        rcases kindOf_some (hentry s q hs).1 with ⟨_, h6⟩ | ⟨h6, _⟩
        · exact h6
        · rw [hkd] at h6; cases h6
      | real =>
        right
        refine ⟨by rw [hcomp, hkd]; rfl, fun s q hs => ?_⟩
        rcases kindOf_some (hentry s q hs).1 with ⟨h6, _⟩ | ⟨_, h6⟩
        · rw [hkd] at h6; cases h6
        · exact h6
    · intro s q hs
      obtain ⟨j, hj, hjs⟩ := List.getElem_of_mem ((oo.1 s q).2 hs)
      obtain ⟨cs', hcs, hf⟩ := buildMapping_ok h2
      obtain rfl : cs = cs' := by simpa using hcs
      obtain ⟨e, _, deps, g1, g2⟩ := forall2_left hf ((oo.1 s q).2 hs)
      obtain ⟨pre, c1, c2, fn, post, i1, i2, hdeps, _, hi1, hi2, _⟩ := findConv_some g2
      refine ⟨(c1, c2), ?_, ⟨i1, (io.1 _ _).1 (indexOf_some hi1)⟩, ⟨i2, (io.1 _ _).1 (indexOf_some hi2)⟩⟩
      rw [requires_eq g1, hdeps]; simp
    · have hpos : 0 < ores.length := by
        rw [← h3]; exact List.length_pos_of_ne_nil hes
      exact ⟨ores[0].1, ores[0].2, (oo.1 _ _).1 (List.getElem_mem hpos)⟩
    · by_cases hf : Fits ⟨size (a.shape.take (a.shape.length - p.inShape.length)), 1, 1⟩ convertBlock
      · rw [← hsize]
        obtain ⟨k, hk⟩ := hpow
        rw [hk]
        exact Nat.mul_pos hf.1.1 (Nat.two_pow_pos k)
      · rw [launch_error block_pos.1 block_pos.2.1 block_pos.2.2 hf hlaunch] at hr
        cases hr

/-- **C121.** What the CPU refuses is refused with the same exception, except that an unknown output raises `ValueError` even if
it is the first one, and an empty output schema `IndexError`. -/
theorem C121_errors (t : ConvType) (a : GArr ℂ) (x : List Nat → ℂ) (il ol : List Schema) (e : PyErr)
    (h : convert a.shape x (.list il) (.list ol) = .error e) (r : Except PyErr (GArr ℂ))
    (hr : ConvertGpu false t a (.list il) (.list ol) r) :
    r = .error e ∨ (e = .unboundLocalError ∧ r = .error .valueError) ∨
      (e = .valueError ∧ (∀ s p, ¬ Has ol s p) ∧ r = .error .indexError) := by
  unfold ConvertGpu convertPlan at hr
  unfold convert convertSetup at h
  cases hi : elementIndices (.list il) with
  | error e' =>
    simp only [hi, bind, Except.bind, Except.error.injEq] at h hr
    subst h
    exact Or.inl hr
  | ok i =>
    cases ho : elementIndices (.list ol) with
    | error e' =>
      simp only [hi, ho, bind, Except.bind, Except.error.injEq] at h hr
      subst h
      exact Or.inl hr
    | ok o =>
      simp only [hi, ho, bind, Except.bind, pure, Except.pure] at h hr
      by_cases hd : a.shape.drop (a.shape.length - i.2.length) = i.2
      swap
      · rw [if_pos hd] at h
        rw [if_pos (by simpa using hd)] at hr
        obtain rfl := Except.error.inj h
        exact Or.inl hr
      rw [if_neg (by simpa using hd)] at h
      rw [if_neg (by simpa using hd)] at hr
      cases hm : gpuMapping i.1 o.1 [] with
      | error e' =>
        simp only [hm] at hr
        rcases gpuMapping_error hm false [] with ⟨rfl, h'⟩ | ⟨rfl, e'', h', rfl | rfl⟩
        · simp only [h', Except.error.injEq] at h
          subst h
          exact Or.inl hr
        · simp only [h', Except.error.injEq] at h
          subst h
          exact Or.inl hr
        · simp only [h', Except.error.injEq] at h
          subst h
          exact Or.inr (Or.inl ⟨rfl, hr⟩)
      | ok es =>
        obtain ⟨es', cs, h1, h2, h3, h4, _⟩ := gpuMapping_ok hm false []
        obtain rfl : es = es' := by simpa using h1
        simp only [h2, List.nil_append] at h
        cases hcs : cs with
        | cons c cs' => rw [hcs] at h; cases h
        | nil =>
          rw [hcs] at h h4
          obtain rfl := Except.error.inj h
          have h0 : o.1 = [] := List.length_eq_zero_iff.1 (by simpa using h4.symm)
          have he : es = [] := List.length_eq_zero_iff.1 (by rw [h3, h0]; rfl)
          rw [hm, he] at hr
          refine Or.inr (Or.inr ⟨rfl, fun s p hs => ?_, hr⟩)
          have := ((C46_indices ol o.1 o.2 ho).1 s p).2 hs
          rw [h0] at this
          cases this

/-- **C121.** Values are never taken from the wrong places: if the input is not contiguous and has one leading axis, the kernel
is not launched. -/
theorem C121_strided (generated : Bool) (t : ConvType) (a : GArr ℂ) (n m : Nat) (il ol : List Schema) (hs : a.shape = [n, m])
    (hc : ¬ a.Contiguous) (r : Except PyErr (GArr ℂ)) (hr : ConvertGpu generated t a (.list il) (.list ol) r)
    (hin : ∀ ires ishape, elementIndices (.list il) = .ok (ires, ishape) → ishape.length = 1) : ∃ e, r = .error e := by
  unfold ConvertGpu at hr
  cases hp : convertPlan generated t a.shape (.list il) (.list ol) with
  | error e => rw [hp] at hr; exact ⟨_, hr⟩
  | ok p =>
    rw [hp] at hr
    dsimp only at hr
    obtain ⟨ires, _, _, hi, _⟩ := plan_only hp
    have hlen := hin _ _ hi
    by_cases hsize : size (a.shape.take (a.shape.length - p.inShape.length)) * size p.inShape ≠ size a.shape
    · rw [if_pos hsize] at hr; exact ⟨_, hr⟩
    rw [if_neg hsize] at hr
    push Not at hsize
    obtain ⟨inputs, hre, ⟨_, h'⟩ | ⟨_, _, h'⟩ | ⟨hcon, _, junkIn, junkOut, out, hl, rfl⟩⟩ := hr
    · exact ⟨_, h'⟩
    · exact ⟨_, h'⟩
    · obtain ⟨q, hq⟩ := List.length_eq_one_iff.1 hlen
      rw [hs, hq] at hsize hre hl
      simp only [List.length_cons, List.length_nil, size, Nat.mul_one] at hsize hre hl
      simp only [Nat.zero_add, Nat.reduceAdd, Nat.reduceSub, List.take_succ_cons, List.take_zero, size, Nat.mul_one] at hsize hre hl
      rcases Nat.eq_zero_or_pos n with h0 | h0
      · rw [launch_error block_pos.1 block_pos.2.1 block_pos.2.2 (fun hf => by have := hf.1.1; dsimp only at this; omega) hl]
        exact ⟨_, rfl⟩
      · have hqm : q = m := Nat.eq_of_mul_eq_mul_left h0 hsize
        have := hre.2.2.2 (by rw [hs, hqm])
        rw [this] at hcon
        exact absurd hcon hc

end Verif.Cuda
