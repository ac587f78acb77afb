/-
Lemmas about the CUDA version of `beam_cube_dde`.
-/
import Verif.Cuda.Beam
import Verif.Cuda.PredictLemmas
import Verif.Rime.PropsBeam

set_option autoImplicit false

namespace Verif.Cuda

open Verif.Rime (bsearch freqData axisPos axisPos_spec beamCoords beamCells beamValue beamRead)

attribute [local irreducible] Dim3.all

/-! ### frequencies -/

theorem bsearch_range (grid : Int → ℝ) (nud : Nat) (freq : ℝ) (lower upper : Int) (h0 : 0 ≤ lower) (h1 : upper < nud)
    (h2 : lower ≤ upper + 1) :
    -1 ≤ min (bsearch grid freq lower upper).1 (bsearch grid freq lower upper).2 ∧
      min (bsearch grid freq lower upper).1 (bsearch grid freq lower upper).2 < nud := by
  fun_induction bsearch grid freq lower upper with
  | case1 lower upper h mid hlt ih => exact ih (by omega) h1 (by omega)
  | case2 lower upper h mid hnlt hgt ih => exact ih h0 (by omega) (by omega)
  | case3 lower upper h mid hnlt hngt => dsimp only; omega
  | case4 lower upper h => dsimp only; omega

theorem bsearch_congr (grid grid' : Int → ℝ) (nud : Nat) (freq : ℝ) (hg : ∀ k : Int, 0 ≤ k → k < nud → grid k = grid' k)
    (lower upper : Int) (h0 : 0 ≤ lower) (h1 : upper < nud) : bsearch grid freq lower upper = bsearch grid' freq lower upper := by
  fun_induction bsearch grid freq lower upper with
  | case1 lower upper h mid hlt ih =>
    rw [ih (by omega) h1]
    conv_rhs => rw [bsearch]
    rw [if_pos h]
    have hm := hg mid (by omega) (by omega)
    dsimp only
    rw [if_pos (by rw [← hm]; exact hlt)]
  | case2 lower upper h mid hnlt hgt ih =>
    rw [ih h0 (by omega)]
    conv_rhs => rw [bsearch]
    rw [if_pos h]
    have hm := hg mid (by omega) (by omega)
    dsimp only
    rw [if_neg (by rw [← hm]; exact hnlt), if_pos (by rw [← hm]; exact hgt)]
  | case3 lower upper h mid hnlt hngt =>
    rw [bsearch, if_pos h]
    have hm := hg mid (by omega) (by omega)
    dsimp only
    rw [if_neg (by rw [← hm]; exact hnlt), if_neg (by rw [← hm]; exact hngt)]
  | case4 lower upper h =>
    rw [bsearch, if_neg h]

/-- The values of one channel, for frequencies of the beam that agree with those of the CPU version. -/
theorem interpRow_eq (grid grid' : Int → ℝ) (nud : Nat) (hn : 2 ≤ nud) (freq : ℝ)
    (hg : ∀ k : Int, 0 ≤ k → k < nud → grid k = grid' k) :
    0 ≤ (freqData grid' nud freq).2.2 ∧ (freqData grid' nud freq).2.2 + 1 < nud ∧
      interpRow grid nud freq =
        ((freqData grid' nud freq).1, (freqData grid' nud freq).2.1, ((freqData grid' nud freq).2.2 : ℝ)) := by
  have hr := bsearch_range grid' nud freq 0 ((nud : Int) - 1) (by omega) (by omega) (by omega)
  unfold interpRow freqData
  rw [bsearch_congr grid grid' nud freq hg 0 ((nud : Int) - 1) (by omega) (by omega)]
  dsimp only
  generalize min (bsearch grid' freq 0 ((nud : Int) - 1)).1 (bsearch grid' freq 0 ((nud : Int) - 1)).2 = k at hr ⊢
  by_cases h1 : k = -1
  · rw [if_pos h1, if_pos h1, hg 0 le_rfl (by omega)]
    exact ⟨by simp, by simp; omega, by simp⟩
  · rw [if_neg h1, if_neg h1]
    by_cases h2 : k + 1 = nud
    · rw [if_pos h2, if_pos h2, hg ((nud : Int) - 1) (by omega) (by omega)]
      exact ⟨by dsimp only; omega, by dsimp only; omega, by simp⟩
    · rw [if_neg h2, if_neg h2, hg k (by omega) (by omega), hg (k + 1) (by omega) (by omega)]
      exact ⟨by dsimp only; omega, by dsimp only; omega, rfl⟩

/-- The contents of `beam_freqs` when the channel `f` is processed, the block having found `init` in shared memory. -/
noncomputable def loadedFreqs (freqMap : GArr ℝ) (init : Dim3 → Nat → ℝ) (f : Nat) (k : Int) : ℝ :=
  if f < 1024 ∧ k.toNat < 128 then freqMap.flatInt k.toNat else init ⟨f / 1024, 0, 0⟩ k.toNat

/-- The output of the first kernel. -/
def InterpFrom (freq freqMap : GArr ℝ) (init : Dim3 → Nat → ℝ) (fd : Nat → ℝ) : Prop :=
  ∀ f < freq.shape.getD 0 0, ∀ row, row = interpRow (loadedFreqs freqMap init f) (freqMap.shape.getD 0 0) (freq.flatInt f) →
    fd f = row.1 ∧ fd (freq.shape.getD 0 0 + f) = row.2.1 ∧ fd (2 * freq.shape.getD 0 0 + f) = row.2.2

private theorem mem_copy {block : Dim3} {freq freqMap : GArr ℝ} {b t : Dim3} {sh : Nat → ℝ} {e : Nat × ℝ} :
    e ∈ (interpKernel block freq freqMap).body b t sh ↔
      b.x * block.x + t.x < freq.shape.getD 0 0 ∧
        ∃ row, row = interpRow (fun k => sh k.toNat) (freqMap.shape.getD 0 0) (freq.flatInt ((b.x * block.x + t.x : Nat) : Int)) ∧
          (e = (b.x * block.x + t.x, row.1) ∨ e = (freq.shape.getD 0 0 + (b.x * block.x + t.x), row.2.1) ∨
            e = (2 * freq.shape.getD 0 0 + (b.x * block.x + t.x), row.2.2)) := by
  simp only [interpKernel]
  split
  · simp only [List.not_mem_nil, false_iff]
    omega
  · constructor
    · intro he
      refine ⟨by omega, _, rfl, ?_⟩
      simp only [List.mem_cons, List.not_mem_nil, or_false, zero_mul, zero_add, one_mul] at he
      exact he
    · rintro ⟨_, row, rfl, he⟩
      simp only [List.mem_cons, List.not_mem_nil, or_false, zero_mul, zero_add, one_mul]
      exact he

private theorem mem_interp {freq freqMap : GArr ℝ} {b t : Dim3} {sh : Nat → ℝ} {e : Nat × ℝ} :
    e ∈ (interpKernel interpBlock freq freqMap).body b t sh ↔
      b.x * 1024 + t.x < freq.shape.getD 0 0 ∧
        ∃ row, row = interpRow (fun k => sh k.toNat) (freqMap.shape.getD 0 0) (freq.flatInt ((b.x * 1024 + t.x : Nat) : Int)) ∧
          (e = (b.x * 1024 + t.x, row.1) ∨ e = (freq.shape.getD 0 0 + (b.x * 1024 + t.x), row.2.1) ∨
            e = (2 * freq.shape.getD 0 0 + (b.x * 1024 + t.x), row.2.2)) := mem_copy

private theorem mem_load' {block : Dim3} {freq freqMap : GArr ℝ} {b t : Dim3} {e : Nat × ℝ} :
    e ∈ (interpKernel block freq freqMap).load b t ↔
      b.x * block.x + t.x < 128 ∧ e = (t.x, freqMap.flatInt ((b.x * block.x + t.x : Nat) : Int)) := by
  have h128 : beamNudLimit = 128 := rfl
  simp only [interpKernel]
  split
  · rename_i h
    rw [h128] at h
    simp [h]
  · rename_i h
    rw [h128] at h
    simp [h]

private theorem mem_load {freq freqMap : GArr ℝ} {b t : Dim3} {e : Nat × ℝ} :
    e ∈ (interpKernel interpBlock freq freqMap).load b t ↔
      b.x * 1024 + t.x < 128 ∧ e = (t.x, freqMap.flatInt ((b.x * 1024 + t.x : Nat) : Int)) := mem_load'

private theorem place_unique {n f g o : Nat} (hf : f < n) (hg : g < n) (h1 : o = f ∨ o = n + f ∨ o = 2 * n + f)
    (h2 : o = g ∨ o = n + g ∨ o = 2 * n + g) : g = f := by omega

private theorem interpBlock_pos : 0 < interpBlock.x ∧ 0 < interpBlock.y ∧ 0 < interpBlock.z := by
  simp [interpBlock]

theorem interp_from {freq freqMap : GArr ℝ} {init sh : Dim3 → Nat → ℝ} {out0 : Nat → ℝ} {ws : List (Nat × ℝ)}
    (hsh : ∀ b ∈ (blocks ⟨freq.shape.getD 0 0, 1, 1⟩ interpBlock).all, ∃ w : List (Nat × ℝ),
      w.Perm (interpBlock.all.flatMap ((interpKernel interpBlock freq freqMap).load b)) ∧ sh b = writeAll (init b) w)
    (hws : ws.Perm ((blocks ⟨freq.shape.getD 0 0, 1, 1⟩ interpBlock).all.flatMap fun b =>
      interpBlock.all.flatMap fun t => (interpKernel interpBlock freq freqMap).body b t (sh b))) :
    InterpFrom freq freqMap init (writeAll out0 ws) := by
  intro f hf row hrow
  have hb : (⟨f / 1024, 0, 0⟩ : Dim3) ∈ (blocks ⟨freq.shape.getD 0 0, 1, 1⟩ interpBlock).all := by
    refine mem_all.2 ⟨?_, ?_, ?_⟩
    · exact div_lt_grid interpBlock_pos.1 hf
    · simp [blocks, interpBlock]
    · simp [blocks, interpBlock]
  have hload : ∀ k : Int, sh ⟨f / 1024, 0, 0⟩ k.toNat = loadedFreqs freqMap init f k := by
    intro k
    obtain ⟨w, hw, he⟩ := hsh _ hb
    unfold loadedFreqs
    by_cases h : f < 1024 ∧ k.toNat < 128
    · rw [if_pos h]
      refine memory_eq hw he _ _ ?_ ⟨⟨k.toNat, 0, 0⟩, mem_all.2 ⟨by simp only [interpBlock]; omega, Nat.zero_lt_one, Nat.zero_lt_one⟩, ?_⟩
      · intro t _ e he1 he2
        obtain ⟨_, rfl⟩ := mem_load.1 he1
        dsimp only at he2 ⊢
        rw [he2, Nat.div_eq_of_lt h.1]
        simp
      · rw [mem_load]
        dsimp only
        rw [Nat.div_eq_of_lt h.1]
        exact ⟨by omega, by simp⟩
    · rw [if_neg h]
      refine memory_keep hw he _ ?_
      intro t _ e he1 he2
      obtain ⟨hlt, rfl⟩ := mem_load.1 he1
      dsimp only at he2 hlt
      omega
  have ht : (⟨f % 1024, 0, 0⟩ : Dim3) ∈ interpBlock.all :=
    mem_all.2 ⟨by simp only [interpBlock]; omega, Nat.zero_lt_one, Nat.zero_lt_one⟩
  have hidx : f / 1024 * 1024 + f % 1024 = f := by omega
  have hrow' : row = interpRow (fun k => sh ⟨f / 1024, 0, 0⟩ k.toNat) (freqMap.shape.getD 0 0) (freq.flatInt f) := by
    rw [hrow]
    congr 1
    funext k
    exact (hload k).symm
  have hsame : ∀ b ∈ (blocks ⟨freq.shape.getD 0 0, 1, 1⟩ interpBlock).all, ∀ t ∈ interpBlock.all,
      b.x * 1024 + t.x = f → b = ⟨f / 1024, 0, 0⟩ := by
    intro b hb t ht h
    obtain ⟨bx, by', bz⟩ := b
    obtain ⟨h1, h2, h3⟩ := mem_all.1 hb
    obtain ⟨h4, h5, h6⟩ := mem_all.1 ht
    simp only [blocks, interpBlock] at h1 h2 h3 h4 h5 h6 h
    simp only [Dim3.mk.injEq]
    omega
  have key : ∀ (o : Nat) (v : ℝ), (o = f ∧ v = row.1 ∨ o = freq.shape.getD 0 0 + f ∧ v = row.2.1 ∨
      o = 2 * freq.shape.getD 0 0 + f ∧ v = row.2.2) → writeAll out0 ws o = v := by
    intro o v hov
    refine out_eq hws _ _ ?_ ⟨_, hb, _, ht, v, ?_⟩
    · intro b hb' t ht' e he1 he2
      obtain ⟨hlt, row', hr, he1⟩ := mem_interp.1 he1
      have hbt : b.x * 1024 + t.x = f := by
        have h3 : o = f ∨ o = freq.shape.getD 0 0 + f ∨ o = 2 * freq.shape.getD 0 0 + f := by
          rcases hov with ⟨h, _⟩ | ⟨h, _⟩ | ⟨h, _⟩
          exacts [Or.inl h, Or.inr (Or.inl h), Or.inr (Or.inr h)]
        have h4 : o = b.x * 1024 + t.x ∨ o = freq.shape.getD 0 0 + (b.x * 1024 + t.x) ∨
            o = 2 * freq.shape.getD 0 0 + (b.x * 1024 + t.x) := by
          rcases he1 with rfl | rfl | rfl
          exacts [Or.inl he2.symm, Or.inr (Or.inl he2.symm), Or.inr (Or.inr he2.symm)]
        exact place_unique hf hlt h3 h4
      have hbe := hsame b hb' t ht' hbt
      have hrr : row' = row := by
        rw [hr, hrow', hbt, hbe]
      rw [hbt] at he1
      subst hrr
      rcases he1 with rfl | rfl | rfl <;> dsimp only at he2 ⊢ <;>
        rcases hov with ⟨h, hv⟩ | ⟨h, hv⟩ | ⟨h, hv⟩ <;> first | exact hv.symm | exact absurd (he2.trans h) (by omega)
    · rw [mem_interp]
      dsimp only
      rw [hidx]
      refine ⟨hf, row, hrow', ?_⟩
      rcases hov with ⟨rfl, rfl⟩ | ⟨rfl, rfl⟩ | ⟨rfl, rfl⟩
      · exact Or.inl rfl
      · exact Or.inr (Or.inl rfl)
      · exact Or.inr (Or.inr rfl)
  exact ⟨key _ _ (Or.inl ⟨rfl, rfl⟩), key _ _ (Or.inr (Or.inl ⟨rfl, rfl⟩)), key _ _ (Or.inr (Or.inr ⟨rfl, rfl⟩))⟩

set_option linter.constructorNameAsVariable false in
theorem interp_runs {freq freqMap : GArr ℝ} {fd : Except PyErr (Nat → ℝ)}
    (hfit : Fits ⟨freq.shape.getD 0 0, 1, 1⟩ interpBlock)
    (h : LaunchOver (interpKernel interpBlock freq freqMap) ⟨freq.shape.getD 0 0, 1, 1⟩ interpBlock fd) :
    ∃ out init, fd = .ok out ∧ InterpFrom freq freqMap init out := by
  have hp := interpBlock_pos
  have hfrom := @interp_from freq freqMap
  generalize interpBlock = block at *
  obtain ⟨out, rfl, init, sh, out0, ws, hsh, hws, rfl⟩ := launch_ok hp.1 hp.2.1 hp.2.2 hfit h
  exact ⟨_, init, rfl, hfrom hsh hws⟩

theorem interp_exists {freq freqMap : GArr ℝ} (hfit : Fits ⟨freq.shape.getD 0 0, 1, 1⟩ interpBlock) (init : Dim3 → Nat → ℝ) :
    ∃ out, LaunchOver (interpKernel interpBlock freq freqMap) ⟨freq.shape.getD 0 0, 1, 1⟩ interpBlock (.ok out) ∧
      InterpFrom freq freqMap init out := by
  have hp := interpBlock_pos
  have hfrom := @interp_from freq freqMap
  generalize interpBlock = block at *
  let sh : Dim3 → Nat → ℝ := fun b => writeAll (init b) (block.all.flatMap ((interpKernel block freq freqMap).load b))
  refine ⟨writeAll (fun _ => 0) ((blocks ⟨freq.shape.getD 0 0, 1, 1⟩ block).all.flatMap fun b =>
    block.all.flatMap fun t => (interpKernel block freq freqMap).body b t (sh b)),
    (launch_iff hp.1 hp.2.1 hp.2.2 hfit).2 ⟨_, rfl, init, sh, fun _ => 0, _, fun b _ =>
      ⟨_, List.Perm.refl _, rfl⟩, List.Perm.refl _, rfl⟩, hfrom (sh := sh) (fun b _ => ⟨_, List.Perm.refl _, rfl⟩)
      (List.Perm.refl _)⟩

/-! ### the value at one point -/

private theorem cInt_cast (k : Int) : cInt (k : ℝ) = k := by
  unfold cInt
  split <;> simp

theorem gridLines_eq {n : Nat} (hn : 2 ≤ n) (lo hi v : ℝ) :
    gridLines n (((n : ℝ) - 1) / (hi - lo)) lo v =
      (((axisPos n lo hi v).1 : ℝ), ((axisPos n lo hi v).2.1 : ℝ), (axisPos n lo hi v).2.2) := by
  have hc : (((n : Int) - 1 : Int) : ℝ) = (n : ℝ) - 1 := by push_cast; rfl
  have h0 : (0 : ℝ) ≤ (n : ℝ) - 1 := by
    have : (2 : ℝ) ≤ n := by exact_mod_cast hn
    linarith
  have hmm : ∀ x : ℝ, min ((n : ℝ) - 1) (max 0 x) = max 0 (min x ((n : ℝ) - 1)) := by
    intro x
    rcases le_total x 0 with h | h
    · rw [max_eq_left h, min_eq_right h0, min_eq_left (h.trans h0), max_eq_left h]
    · rw [max_eq_right h, min_comm, max_eq_right (le_min h h0)]
  unfold gridLines axisPos
  dsimp only
  rw [hc, hmm]
  generalize max 0 (min (((n : ℝ) - 1) / (hi - lo) * (v - lo)) ((n : ℝ) - 1)) = y
  rw [Int.cast_min]
  push_cast
  rfl

/-- One of the eight reads. -/
theorem trilinear_eq {lw mh nud ncorr corr : Nat} {mem : Int → ℂ} {beam : Int → Int → Int → ℂ}
    (hsmall : lw * mh * nud * ncorr ≤ 2 ^ 31) (hcorr : corr < ncorr)
    (hb : ∀ i < lw, ∀ j < mh, ∀ k < nud, mem (((i * mh + j) * nud + k) * ncorr + corr : Nat) = beam i j k)
    (acc : ℂ × ℝ) {i j k : Int} (hi : 0 ≤ i ∧ i < lw) (hj : 0 ≤ j ∧ j < mh) (hk : 0 ≤ k ∧ k < nud) (w : ℝ) :
    trilinear mem mh nud ncorr corr acc i j k w = (acc.1 + w * beam i j k, acc.2 + w * ‖beam i j k‖) := by
  obtain ⟨i, rfl⟩ := Int.eq_ofNat_of_zero_le hi.1
  obtain ⟨j, rfl⟩ := Int.eq_ofNat_of_zero_le hj.1
  obtain ⟨k, rfl⟩ := Int.eq_ofNat_of_zero_le hk.1
  have hi' : i < lw := by exact_mod_cast hi.2
  have hj' : j < mh := by exact_mod_cast hj.2
  have hk' : k < nud := by exact_mod_cast hk.2
  have hlt : ((i * mh + j) * nud + k) * ncorr + corr < 2 ^ 31 := by
    have h1 : (i + 1) * mh ≤ lw * mh := Nat.mul_le_mul_right _ hi'
    have h2 : (i * mh + j + 1) * nud ≤ lw * mh * nud := Nat.mul_le_mul_right _ (by rw [Nat.succ_mul] at h1; omega)
    have h3 : ((i * mh + j) * nud + k + 1) * ncorr ≤ lw * mh * nud * ncorr :=
      Nat.mul_le_mul_right _ (by rw [Nat.succ_mul] at h2; omega)
    rw [Nat.succ_mul] at h3
    omega
  unfold trilinear
  rw [cInt_cast, cInt_cast, cInt_cast]
  have e : (((i : Int) * mh + j) * nud + k) * ncorr + corr = (((i * mh + j) * nud + k) * ncorr + corr : Nat) := by push_cast; rfl
  have e' : Int.bmod ((((i : Int) * mh + j) * nud + k) * ncorr + corr) (2 ^ 32) =
      (((i * mh + j) * nud + k) * ncorr + corr : Nat) := by
    rw [e]
    apply Int.bmod_eq_of_le <;> omega
  dsimp only
  rw [e', hb i hi' j hj' k hk']
  generalize beam i j k = z
  refine Prod.ext ?_ ?_
  · apply Complex.ext <;> simp
  · dsimp only
    rw [Complex.norm_def, Complex.normSq_apply]

private theorem normalise (P : ℂ) (A : ℝ) :
    (⟨P.re * ((if P.re * P.re + P.im * P.im = 0 then 1 else 1 / Real.sqrt (P.re * P.re + P.im * P.im)) * A),
      P.im * ((if P.re * P.re + P.im * P.im = 0 then 1 else 1 / Real.sqrt (P.re * P.re + P.im * P.im)) * A)⟩ : ℂ) =
      if ‖P‖ = 0 then P * A else P * ((A / ‖P‖ : ℝ) : ℂ) := by
  have hsq : P.re * P.re + P.im * P.im = ‖P‖ * ‖P‖ := by
    rw [← sq ‖P‖, ← Complex.normSq_eq_norm_sq, Complex.normSq_apply]
  rw [hsq, Real.sqrt_mul_self (norm_nonneg _)]
  by_cases h : ‖P‖ = 0
  · rw [if_pos (by rw [h, mul_zero]), if_pos h, one_mul]
    apply Complex.ext <;> simp
  · rw [if_neg (mul_self_ne_zero.2 h), if_neg h]
    apply Complex.ext
    · rw [Complex.mul_re, Complex.ofReal_re, Complex.ofReal_im]
      ring
    · rw [Complex.mul_im, Complex.ofReal_re, Complex.ofReal_im]
      ring

theorem beamPoint_eq {lw mh nud ncorr corr : Nat} {mem : Int → ℂ} {beam : Int → Int → Int → ℂ} (hlw : 2 ≤ lw) (hmh : 2 ≤ mh)
    (hsmall : lw * mh * nud * ncorr ≤ 2 ^ 31) (hcorr : corr < ncorr)
    (hb : ∀ i < lw, ∀ j < mh, ∀ k < nud, mem (((i * mh + j) * nud + k) * ncorr + corr : Nat) = beam i j k)
    (ll hl lm hm : ℝ) (fs w : ℝ) (g : Int) (hg0 : 0 ≤ g) (hg1 : g + 1 < nud) (l m pa pe0 pe1 as0 as1 : ℝ) :
    beamPoint lw mh nud ncorr corr mem (((lw : ℝ) - 1) / (hl - ll)) ll (((mh : ℝ) - 1) / (hm - lm)) lm fs w g l m pe0 pe1
        (Real.sin pa) (Real.cos pa) as0 as1 =
      beamValue (beamCells (axisPos lw ll hl (beamCoords l m fs pe0 pe1 pa as0 as1).1)
        (axisPos mh lm hm (beamCoords l m fs pe0 pe1 pa as0 as1).2) w g) beam := by
  unfold beamPoint
  dsimp only
  have ec1 : ((l * fs + pe0) * Real.cos pa - (m * fs + pe1) * Real.sin pa) * as0 =
      (beamCoords l m fs pe0 pe1 pa as0 as1).1 := rfl
  have ec2 : ((l * fs + pe0) * Real.sin pa + (m * fs + pe1) * Real.cos pa) * as1 =
      (beamCoords l m fs pe0 pe1 pa as0 as1).2 := rfl
  rw [ec1, ec2, gridLines_eq hlw, gridLines_eq hmh]
  obtain ⟨l1, l2, l3, l4, _, _⟩ := axisPos_spec hlw ll hl (beamCoords l m fs pe0 pe1 pa as0 as1).1
  obtain ⟨m1, m2, m3, m4, _, _⟩ := axisPos_spec hmh lm hm (beamCoords l m fs pe0 pe1 pa as0 as1).2
  generalize axisPos lw ll hl (beamCoords l m fs pe0 pe1 pa as0 as1).1 = pl at *
  generalize axisPos mh lm hm (beamCoords l m fs pe0 pe1 pa as0 as1).2 = pm at *
  obtain ⟨a0, a1, ad⟩ := pl
  obtain ⟨b0, b1, bd⟩ := pm
  dsimp only at *
  have hgc : ((g : ℝ) + 1) = ((g + 1 : Int) : ℝ) := by push_cast; rfl
  rw [hgc]
  have T := fun acc i j k hi hj hk w' =>
    trilinear_eq (lw := lw) hsmall hcorr hb acc (i := i) (j := j) (k := k) hi hj hk w'
  rw [T _ a0 b0 g ⟨l1, l2⟩ ⟨m1, m2⟩ ⟨hg0, by omega⟩, T _ a1 b0 g ⟨l3, l4⟩ ⟨m1, m2⟩ ⟨hg0, by omega⟩,
    T _ a0 b1 g ⟨l1, l2⟩ ⟨m3, m4⟩ ⟨hg0, by omega⟩, T _ a1 b1 g ⟨l3, l4⟩ ⟨m3, m4⟩ ⟨hg0, by omega⟩,
    T _ a0 b0 (g + 1) ⟨l1, l2⟩ ⟨m1, m2⟩ ⟨by omega, hg1⟩, T _ a1 b0 (g + 1) ⟨l3, l4⟩ ⟨m1, m2⟩ ⟨by omega, hg1⟩,
    T _ a0 b1 (g + 1) ⟨l1, l2⟩ ⟨m3, m4⟩ ⟨by omega, hg1⟩, T _ a1 b1 (g + 1) ⟨l3, l4⟩ ⟨m3, m4⟩ ⟨by omega, hg1⟩]
  unfold beamValue beamCells
  dsimp only
  simp only [List.foldl_cons, List.foldl_nil]
  have hz : (⟨0, 0⟩ : ℂ) = 0 := rfl
  rw [hz]
  exact normalise _ _

end Verif.Cuda
