/-
C115: conversion of correlations on dask arrays.
-/
import Verif.Dask.Sky
import Verif.Dask.RimeLemmas
import Verif.ModelData.CoherencyProps

set_option autoImplicit false

namespace Verif.Dask

open Verif.ModelData

/-- The chunks of the only argument are kept. -/
theorem Unified.only {labels : List Label} {cs : List (List Nat)} {ext : Label → Nat} {env : Label → List Nat}
    (hU : Unified [(labels, cs)] ext env) (hn : labels.Nodup) (hl : labels.length = cs.length) : labels.map env = cs := by
  apply List.ext_getElem (by simp [hl])
  intro i h1 h2
  have hi : i < labels.length := by omega
  rw [List.getElem_map]
  have hmem : ∀ d, d ∈ chunksFor [(labels, cs)] labels[i] ↔ (labels[i], d) ∈ labels.zip cs := by
    intro d
    rw [mem_chunksFor]
    simp
  have hz : (labels[i], cs[i]) ∈ labels.zip cs := by
    rw [← List.getElem_zip (h := by simp [hi, h2])]
    exact List.getElem_mem _
  refine hU.kept _ _ (List.ne_nil_of_mem ((hmem _).2 hz)) fun d hd => ?_
  obtain ⟨k, hk, e⟩ := List.mem_iff_getElem.1 ((hmem d).1 hd)
  rw [List.getElem_zip] at e
  simp only [Prod.mk.injEq] at e
  obtain ⟨e1, rfl⟩ := e
  have : k = i := (List.Nodup.getElem_inj_iff hn).1 e1
  subst this
  rfl

theorem pick_zip_map : ∀ (ls : List Label) (b : List Nat), ls.Nodup → b.length = ls.length →
    ls.map (fun l => pick l (ls.zip b)) = b.map some := by
  intro ls
  induction ls with
  | nil => intro b _ h; simp at h; simp [h]
  | cons l ls ih =>
    intro b hn hb
    cases b with
    | nil => simp at hb
    | cons j b =>
      simp only [List.nodup_cons] at hn
      simp only [List.length_cons, add_left_inj] at hb
      simp only [List.zip_cons_cons, List.map_cons, List.cons.injEq]
      refine ⟨by simp [pick], ?_⟩
      rw [← ih b hn.2 hb]
      apply List.map_congr_left
      intro k hk
      have : ¬ l = k := fun e => hn.1 (e ▸ hk)
      simp [pick, this]

theorem outChunks_new (ls : List Label) (ns : List Nat) (env : Label → List Nat) (hn : ls.Nodup)
    (hl : ns.length = ls.length) : ls.map (outChunks (ls.zip ns) env) = ns.map fun n => [n] := by
  have h := pick_zip_map ls ns hn hl
  apply List.ext_getElem (by simp [hl])
  intro i h1 h2
  have hi : i < ls.length := by simpa using h1
  have hi' : i < ns.length := by omega
  have : pick ls[i] (ls.zip ns) = some ns[i] := by
    have := congrArg (fun l => l[i]?) h
    simpa [hi, hi'] using this
  simp [outChunks, this]

theorem allBlocks_single {cs : List (List Nat)} (h : ∀ c ∈ cs, c.length = 1) : allBlocks cs = [cs.map fun _ => 0] := by
  induction cs with
  | nil => rfl
  | cons c cs ih =>
    have hc := h c (by simp)
    rw [allBlocks, ih fun c hc => h c (by simp [hc]), hc]
    simp

theorem numbered_disjoint {a b : String} (hab : a ≠ b) {n m : Nat} {l : Label} (h : l ∈ numberedLabels a n) :
    l ∉ numberedLabels b m := by
  obtain ⟨i, _, rfl⟩ := mem_numberedLabels.1 h
  intro h'
  obtain ⟨j, _, e⟩ := mem_numberedLabels.1 h'
  simp only [Label.numbered.injEq] at e
  exact hab e.1

theorem elementIndices_list (s : Schema) : ∃ l, elementIndices s = elementIndices (.list l) := by
  cases s with
  | list l => exact ⟨l, rfl⟩
  | str x => exact ⟨[.str x], rfl⟩
  | num x => exact ⟨[.num x], rfl⟩
  | other => exact ⟨[.other], rfl⟩

theorem zipWith_zero (n : Nat) : ∀ j : List Nat, j.length ≤ n → List.zipWith (· + ·) (List.replicate n 0) j = j := by
  induction n with
  | zero => intro j hj; have : j = [] := List.eq_nil_of_length_eq_zero (by omega); simp [this]
  | succ n ih =>
    intro j hj
    cases j with
    | nil => simp
    | cons x j => simp only [List.replicate_succ, List.zipWith_cons_cons, zero_add]; rw [ih j (by simpa using hj)]

/-- **C115**: `convert` of dask arrays. The correlations are in one block; see `C115_convert_violated`. Schemas that are
refused are refused at once, with the exception of the numpy function. -/
theorem C115_convert_partial (input : DArr ℂ) (inSchema outSchema : Schema) (n : Nat) (hv : input.Valid n)
    (hone : ∀ s, elementIndices inSchema = .ok s →
      ∀ c ∈ input.chunks.drop (input.chunks.length - s.2.length), c.length = 1) :
    match daskConvert input inSchema outSchema with
    | .error e => npConvert input.whole inSchema outSchema = .error e
    | .ok l => l.Agrees (npConvert input.whole inSchema outSchema) := by
  obtain ⟨-, hg⟩ := hv
  unfold daskConvert npConvert
  cases hi : elementIndices inSchema with
  | error e => simp [bind, Except.bind]
  | ok i =>
    have hone := hone i hi
    simp only [bind, Except.bind]
    have hshape : input.whole.shape = input.chunks.map List.sum := rfl
    rw [hshape]
    cases hc : convertSetup (input.chunks.map List.sum) inSchema outSchema with
    | error e => simp
    | ok m =>
      simp only
      -- what the setup has checked
      have hdrop : (input.chunks.map List.sum).drop (input.chunks.length - i.2.length) = i.2 := by
        unfold convertSetup at hc
        simp only [hi, bind, Except.bind] at hc
        cases ho : elementIndices outSchema with
        | error e => rw [ho] at hc; cases hc
        | ok o =>
          rw [ho] at hc
          simp only at hc
          by_contra hne
          rw [if_pos (by simpa using hne)] at hc
          cases hc
      have hle : i.2.length ≤ input.chunks.length := by
        have := congrArg List.length hdrop
        simp only [List.length_drop, List.length_map] at this
        omega
      have hreads : ∀ e ∈ m.1, e.1.length ≤ i.2.length ∧ e.2.1.length ≤ i.2.length := by
        intro e he
        obtain ⟨l, hl⟩ := elementIndices_list inSchema
        have hc' : convertSetup (input.chunks.map List.sum) (.list l) outSchema = .ok m := by
          rw [← hc]; unfold convertSetup; rw [hl]
        obtain ⟨⟨s1, h1⟩, ⟨s2, h2⟩⟩ := convertSetup_reads (hl ▸ hi) hc' e he
        have hb := (C46_in_bounds l i.1 i.2 (by rw [← hl, hi])).2.2
        exact ⟨(hb _ _ h1).1, (hb _ _ h2).1⟩
      set nF := input.chunks.length - i.2.length with hnF
      set cf := input.chunks.take nF with hcf
      set ci := input.chunks.drop nF with hci
      have hcs : input.chunks = cf ++ ci := (List.take_append_drop _ _).symm
      have hcfl : cf.length = nF := by simp [hcf]; omega
      have hcil : ci.length = i.2.length := by simp [hci]; omega
      have hci2 : ci.map List.sum = i.2 := by rw [← hdrop, hci, List.map_drop]
      set F := numberedLabels "dim" nF with hF
      set O := numberedLabels "ocorr" m.2.length with hO
      set I := numberedLabels "icorr" i.2.length with hI
      have hFl : F.length = nF := numberedLabels_length _ _
      have hOl : O.length = m.2.length := numberedLabels_length _ _
      have hIl : I.length = i.2.length := numberedLabels_length _ _
      have dFO : ∀ l ∈ F, l ∉ O := fun l hl => numbered_disjoint (by decide) hl
      have dFI : ∀ l ∈ F, l ∉ I := fun l hl => numbered_disjoint (by decide) hl
      have dOI : ∀ l ∈ O, l ∉ I := fun l hl => numbered_disjoint (by decide) hl
      have dIO : ∀ l ∈ I, l ∉ O := fun l hl => numbered_disjoint (by decide) hl
      have nFI : (F ++ I).Nodup := by
        rw [List.nodup_append]
        exact ⟨numberedLabels_nodup _ _, numberedLabels_nodup _ _, fun a ha b hb e => dFI a ha (e ▸ hb)⟩
      have nFOI : (F ++ O ++ I).Nodup := by
        rw [List.nodup_append, List.nodup_append]
        refine ⟨⟨numberedLabels_nodup _ _, numberedLabels_nodup _ _, fun a ha b hb e => dFO a ha (e ▸ hb)⟩,
          numberedLabels_nodup _ _, fun a ha b hb e => ?_⟩
        rcases List.mem_append.1 ha with ha | ha
        · exact dFI a ha (e ▸ hb)
        · exact dOI a ha (e ▸ hb)
      generalize hfun : convertTask input (F ++ I) m.1 i.2.length m.2 = f
      obtain ⟨env, hR, he⟩ := blockwise_axes (F ++ O ++ I) (O.zip m.2) [input.arg (F ++ I)] f
        (fun l => match l with
          | .numbered s k => if s = "dim" then (cf.getD k []).sum else (ci.getD k []).sum
          | .name _ => 0)
        (by
          intro l hl
          simp only [List.mem_append] at hl
          rcases hl with (hl | hl) | hl
          · left; exact ⟨_, List.mem_singleton.2 rfl, List.mem_append_left _ hl⟩
          · right
            obtain ⟨k, hk, rfl⟩ := List.mem_iff_getElem.1 hl
            have hk2 : k < m.2.length := by omega
            refine ⟨(O[k], m.2[k]), ?_, rfl⟩
            rw [← List.getElem_zip (h := by simp [hk, hk2])]
            exact List.getElem_mem _
          · left; exact ⟨_, List.mem_singleton.2 rfl, List.mem_append_right _ hl⟩)
        (by
          simp only [List.mem_singleton, forall_eq, DArr.arg]
          rw [hcs]
          refine List.rel_append (R := _) ?_ ?_
          · rw [hF, ← hcfl]
            refine forall₂_numbered "dim" _ _ fun k hk => ⟨hg _ (List.mem_of_mem_take (List.getElem_mem _)), ?_, Or.inl ?_⟩
            · simp [List.getD_eq_getElem?_getD, hk]
            · simp only [List.mem_append]
              exact Or.inl (Or.inl (mem_numberedLabels.2 ⟨k, by simpa using hk, rfl⟩))
          · rw [hI, ← hcil]
            refine forall₂_numbered "icorr" _ _ fun k hk => ⟨hg _ (List.mem_of_mem_drop (List.getElem_mem _)), ?_, Or.inl ?_⟩
            · simp [List.getD_eq_getElem?_getD, hk]
            · simp only [List.mem_append]
              exact Or.inr (mem_numberedLabels.2 ⟨k, by simpa using hk, rfl⟩))
      have henv : (F ++ I).map env = cf ++ ci := by
        rw [← hcs]
        refine hR.unified.only nFI ?_
        rw [hcs]; simp [hFl, hIl, hcfl, hcil]
      rw [List.map_append] at henv
      obtain ⟨eF, eI⟩ := List.append_inj henv (by simp [hFl, hcfl])
      have hch : (F ++ O ++ I).map (outChunks (O.zip m.2) env) = cf ++ (m.2.map fun n => [n]) ++ ci := by
        rw [List.map_append, List.map_append, outChunks_new O m.2 env (numberedLabels_nodup _ _) hOl.symm, ← eF, ← eI]
        have hnone : ∀ l, l ∉ O → outChunks (O.zip m.2) env l = env l := fun l hl => by
          simp [outChunks, pick_zip_none l O m.2 hl]
        rw [List.map_congr_left fun l hl => hnone l (dFO l hl), List.map_congr_left fun l hl => hnone l (dIO l hl)]
      rw [he]
      simp only [hch, pure, Except.pure]
      have htake : (cf ++ (m.2.map fun n => [n]) ++ ci).take (nF + m.2.length) = cf ++ m.2.map fun n => [n] := by
        rw [List.take_left' (by simp [hcfl])]
      have hdr : (cf ++ (m.2.map fun n => [n]) ++ ci).drop (nF + m.2.length) = ci := by
        rw [List.drop_left' (by simp [hcfl])]
      rw [htake, hdr, allBlocks_single hone]
      have wshape : input.whole.shape = cf.map List.sum ++ i.2 := by
        rw [hshape, hcs, List.map_append, hci2]
      refine Lazy.agrees_blocks ?_ ?_ ?_
      · intro c hc'
        simp only [List.mem_append, List.mem_map] at hc'
        rcases hc' with hc' | ⟨k, -, rfl⟩
        · exact (hg c (List.mem_of_mem_take hc')).ne_nil
        · simp
      · intro a ha
        simp only [convertImpl] at ha
        split_ifs at ha
        cases ha
        simp only [wshape, List.length_append, List.length_map, Nat.add_sub_cancel, List.map_append, List.map_map]
        rw [List.take_left' (by simp)]
        congr 1
        exact (List.map_congr_left fun _ _ => by simp).trans (List.map_id _)
      · intro b hb
        have hb0 := hb
        rw [isBlock_append] at hb
        obtain ⟨b1, b2, rfl, hb1, hb2⟩ := hb
        have hb2z : b2 = List.replicate m.2.length 0 := by
          refine List.eq_replicate_iff.2 ⟨by simpa using hb2.length, fun x hx => ?_⟩
          obtain ⟨k, hk, rfl⟩ := List.mem_iff_getElem.1 hx
          have := (List.forall₂_iff_get.1 hb2).2 k hk (by have := hb2.length; omega)
          simpa using this
        have hz : (ci.map fun _ => 0) = List.replicate i.2.length 0 := by
          rw [List.map_const', hcil]
        have hbz : IsBlock ci (List.replicate i.2.length 0) := by
          rw [← hz]
          exact isBlock_zero fun c hc' => by have := hone c hc'; intro h0; simp [h0] at this
        have hfull : IsBlock ((F ++ O ++ I).map (outChunks (O.zip m.2) env)) (b1 ++ b2 ++ List.replicate i.2.length 0) := by
          rw [hch, isBlock_append]
          exact ⟨_, _, rfl, hb0, hbz⟩
        have hb1l : b1.length = nF := by rw [hb1.length, hcfl]
        have hb2l : b2.length = m.2.length := by rw [hb2z]; simp
        have hzip := blk_zip (F ++ O ++ I) (b1 ++ b2 ++ List.replicate i.2.length 0) nFOI
          (by simp [hb1l, hb2l, hFl, hOl, hIl])
        rw [List.map_append, List.map_append] at hzip
        obtain ⟨hzip1, hzI⟩ := List.append_inj hzip (by simp [hb1l, hb2l, hFl, hOl])
        obtain ⟨hzF, -⟩ := List.append_inj hzip1 (by simp [hb1l, hFl])
        simp only [List.map_cons, List.map_nil, sumBlocks, hz]
        rw [← hfun]
        unfold convertTask
        rw [hR.fetch input (F ++ I) 0 _ hfull (by simp) (by rw [hcs]; simp [hFl, hIl, hcfl, hcil]) (by
          rw [List.countP_eq_zero]
          intro l hl
          simp only [List.mem_append] at hl ⊢
          simp only [decide_not, Bool.not_eq_true', decide_eq_false_iff_not, not_not]
          rcases hl with hl | hl
          · exact Or.inl (Or.inl hl)
          · exact Or.inr hl)]
        simp only [bind, Except.bind]
        rw [part_eq, List.map_append, List.map_append, eF, eI, hzF, hzI, List.zipWith_append (by simp [hb1l, hcfl]),
          List.zipWith_append (by simp [hb1l, hcfl])]
        have hsz : List.zipWith blockSize ci (List.replicate i.2.length 0) = i.2 := by
          rw [← hz, List.zipWith_map_right, List.zipWith_self, ← hci2]
          apply List.map_congr_left
          intro c hc'
          obtain ⟨k, rfl⟩ := List.length_eq_one_iff.1 (hone c hc')
          simp [blockSize]
        have hof : List.zipWith blockOff ci (List.replicate i.2.length 0) = List.replicate i.2.length 0 := by
          rw [← hz, List.zipWith_map_right, List.zipWith_self]
          apply List.map_congr_left
          intro c _
          exact blockOff_zero c
        have hol : List.zipWith blockOff (m.2.map fun n => [n]) b2 = List.replicate m.2.length 0 := by
          rw [hb2z]
          apply List.ext_getElem (by simp)
          intro k h1 h2
          simp [blockOff_zero]
        have hos : List.zipWith blockSize (m.2.map fun n => [n]) b2 = m.2 := by
          rw [hb2z]
          apply List.ext_getElem (by simp)
          intro k h1 h2
          simp [blockSize]
        rw [hsz, hof, List.zipWith_append (by simp [hb1l, hcfl]), List.zipWith_append (by simp [hb1l, hcfl]), hol, hos]
        have hzl : (List.zipWith blockSize cf b1).length = nF := by simp [hb1l, hcfl]
        unfold convertImpl
        simp only [wshape, List.length_append, List.length_map, Nat.add_sub_cancel,
          hzl, hcfl, List.take_left' hzl, List.drop_left' hzl, List.take_left' (show (cf.map List.sum).length = nF by simp [hcfl]),
          List.drop_left' (show (cf.map List.sum).length = nF by simp [hcfl])]
        split_ifs with hin
        · refine ⟨_, rfl, fun x hx => ?_⟩
          rw [isIndex_append] at hx
          obtain ⟨x1, x2, rfl, hx1, hx2⟩ := hx
          have hx1l : x1.length = nF := by rw [hx1.length, hzl]
          have hx2l : x2.length = m.2.length := hx2.length
          rw [List.zipWith_append (by simp [hb1l, hcfl, hx1l]), List.take_left' hx1l, List.drop_left' hx1l]
          dsimp only
          rw [List.take_left' (by simp [hb1l, hcfl, hx1l]), List.drop_left' (by simp [hb1l, hcfl, hx1l]),
            zipWith_zero _ _ (by omega)]
          refine congrFun (runMapping_congr fun e he => ?_) x2
          obtain ⟨r1, r2⟩ := hreads e he
          simp only [DArr.whole]
          rw [List.zipWith_append (by simp [hb1l, hcfl, hx1l]), List.zipWith_append (by simp [hb1l, hcfl, hx1l]),
            zipWith_zero _ _ r1, zipWith_zero _ _ r2]
          exact ⟨rfl, rfl⟩
        · exact rfl

/-- **C115** fails for split correlations: with `I, Q, U, V` in two blocks of two, every block is converted as if it
started at `I`, and the results are added. -/
theorem C115_convert_violated :
    let input : DArr ℂ := ⟨[[2, 2]], fun i => (i.headD 0 : ℂ) + 1⟩
    let stokes := Schema.list [.str "I", .str "Q", .str "U", .str "V"]
    let xx := Schema.list [.str "XX"]
    ∃ l a, daskConvert input stokes xx = .ok l ∧ npConvert input.whole stokes xx = .ok a ∧
      (∃ k, l.block [0] = .ok k ∧ k.val [0] = some 10) ∧ a.val [0] = some 3 := by
  intro input stokes xx
  have hi : elementIndices stokes = .ok ([("I", [0]), ("Q", [1]), ("U", [2]), ("V", [3])], [4]) := rfl
  have ho : elementIndices xx = .ok ([("XX", [0])], [1]) := rfl
  have hs : convertSetup [4] stokes xx = .ok ([([0], [1], [0], fun i q => i + q)], [1]) := by
    unfold convertSetup
    rw [hi, ho]
    rfl
  set A : List Arg := [input.arg [.numbered "icorr" 0]] with hA
  have hu : unify A = .ok (unified A) := by
    unfold unify
    rw [if_pos (by decide), if_pos (by decide)]
  have u1 : unified A (.numbered "icorr" 0) = [2, 2] := by decide
  have hl1 : numberedLabels "dim" 0 = [] := rfl
  have hl2 : numberedLabels "icorr" 1 = [.numbered "icorr" 0] := rfl
  have hl3 : numberedLabels "ocorr" 1 = [.numbered "ocorr" 0] := rfl
  unfold daskConvert npConvert
  have hsh : input.chunks.map List.sum = [4] := rfl
  have hsh' : input.whole.shape = [4] := rfl
  rw [hi, hsh, hsh', hs]
  simp only [bind, Except.bind, List.length_singleton, show input.chunks.length - 1 = 0 from rfl, hl1, hl2, hl3, List.nil_append,
    List.cons_append]
  unfold blockwise
  rw [if_pos (by decide), ← hA, hu]
  refine ⟨_, _, rfl, by simp [convertImpl, inBounds, DArr.whole, input]; rfl, ?_, ?_⟩
  · have hr : List.range 2 = [0, 1] := rfl
    simp [pick, u1, allBlocks, hr, sumBlocks, convertTask, convertImpl, inBounds, fetch, DArr.rechunk, newChunks, input, nest,
      Nest.firsts, Nest.array, DArr.block, blockSize, blockOff, runMapping, bind, Except.bind, addArrays, pure, Except.pure]
    norm_num
  · simp [runMapping]
    norm_num

/-- Hypotheses can be met: four correlations in one block, rows in two. -/
example : ∃ l a, daskConvert ⟨[[2, 1], [4]], fun i => (i.getD 1 0 : ℂ) + 1⟩
    (.list [.str "I", .str "Q", .str "U", .str "V"]) (.list [.str "XX"]) = .ok l ∧ l.Computes a ∧ a.shape = [3, 1] := by
  have h := C115_convert_partial ⟨[[2, 1], [4]], fun i => (i.getD 1 0 : ℂ) + 1⟩
    (.list [.str "I", .str "Q", .str "U", .str "V"]) (.list [.str "XX"]) 2
    ⟨rfl, by simp [GoodChunks]⟩ (by
      intro s hs
      have : s = ([("I", [0]), ("Q", [1]), ("U", [2]), ("V", [3])], [4]) := (Except.ok.inj hs).symm
      subst this
      simp)
  have hs : convertSetup [3, 4] (.list [.str "I", .str "Q", .str "U", .str "V"]) (.list [.str "XX"]) =
      .ok ([([0], [1], [0], fun i q => i + q)], [1]) := by
    unfold convertSetup
    rfl
  have hn : ∃ a, npConvert (DArr.whole ⟨[[2, 1], [4]], fun i => (i.getD 1 0 : ℂ) + 1⟩)
      (.list [.str "I", .str "Q", .str "U", .str "V"]) (.list [.str "XX"]) = .ok a ∧ a.shape = [3, 1] := by
    unfold npConvert
    rw [show (DArr.whole ⟨[[2, 1], [4]], fun i => (i.getD 1 0 : ℂ) + 1⟩).shape = [3, 4] from rfl, hs]
    exact ⟨_, rfl, rfl⟩
  obtain ⟨a, ha, hsh⟩ := hn
  rw [ha] at h
  cases hd : daskConvert ⟨[[2, 1], [4]], fun i => (i.getD 1 0 : ℂ) + 1⟩
    (.list [.str "I", .str "Q", .str "U", .str "V"]) (.list [.str "XX"]) with
  | error e => rw [hd] at h; cases h
  | ok l => rw [hd] at h; exact ⟨l, a, rfl, h, hsh⟩

end Verif.Dask
