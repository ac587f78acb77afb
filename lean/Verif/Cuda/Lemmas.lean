/-
Lemmas about launches: memory after writes in any order, and which threads exist.
-/
import Verif.Cuda.Spec
import Mathlib.Tactic.Linarith
import Mathlib.Data.List.Perm.Basic

set_option autoImplicit false

namespace Verif.Cuda

variable {α : Type*}

theorem mem_all {d t : Dim3} : t ∈ d.all ↔ t.x < d.x ∧ t.y < d.y ∧ t.z < d.z := by
  obtain ⟨x, y, z⟩ := t
  simp [Dim3.all]

/-- A cell that is not written keeps its value. -/
theorem writeAll_none {C V : Type*} [DecidableEq C] (m : C → V) (ws : List (C × V)) (c : C) (h : ∀ w ∈ ws, w.1 ≠ c) :
    writeAll m ws c = m c := by
  induction ws generalizing m with
  | nil => rfl
  | cons w ws ih =>
    show writeAll (Function.update m w.1 w.2) ws c = _
    rw [ih _ fun w hw => h w (by simp [hw]), Function.update_of_ne (h w (by simp)).symm]

/-- A cell to which all writes write the same. -/
theorem writeAll_some {C V : Type*} [DecidableEq C] (m : C → V) (ws : List (C × V)) (c : C) (v : V)
    (h : ∀ w ∈ ws, w.1 = c → w.2 = v) (hex : ∃ w ∈ ws, w.1 = c) : writeAll m ws c = v := by
  induction ws generalizing m with
  | nil => simp at hex
  | cons w ws ih =>
    show writeAll (Function.update m w.1 w.2) ws c = _
    by_cases hl : ∃ w ∈ ws, w.1 = c
    · exact ih _ (fun w hw => h w (by simp [hw])) hl
    · push Not at hl
      rw [writeAll_none _ _ _ hl]
      obtain ⟨w', hw', rfl⟩ := hex
      have : w' = w := by
        rcases List.mem_cons.1 hw' with e | e
        · exact e
        · exact absurd rfl (hl w' e)
      subst this
      rw [Function.update_self]
      exact h w' (by simp) rfl

variable {S V O W : Type*} [DecidableEq S] [DecidableEq O]

/-- The number of blocks is the quotient, rounded up. -/
theorem gridOf_eq (dims block : Dim3) (hx : 0 < block.x) (hy : 0 < block.y) (hz : 0 < block.z) :
    gridOf dims block = .ok ⟨(dims.x + block.x - 1) / block.x, (dims.y + block.y - 1) / block.y,
      (dims.z + block.z - 1) / block.z⟩ := by
  have key : ∀ d b : Nat, 0 < b → ((((d : Int) + b - 1).fdiv b)).toNat = (d + b - 1) / b := by
    intro d b hb
    rw [show ((d : Int) + b - 1) = ((d + b - 1 : Nat) : Int) by omega, Int.fdiv_eq_ediv_of_nonneg _ (by omega),
      ← Int.natCast_ediv, Int.toNat_natCast]
  unfold gridOf Verif.Util.grids
  rw [if_neg (by simp), if_neg (by simp), if_neg (by simp; omega)]
  simp [key, hx, hy, hz]

/-- The block of an element is in the grid. -/
theorem div_lt_grid {i n b : Nat} (hb : 0 < b) (hi : i < n) : i / b < (n + b - 1) / b := by
  rw [Nat.lt_iff_add_one_le, Nat.le_div_iff_mul_le hb]
  have := Nat.div_mul_le_self i b
  rw [Nat.add_mul]
  omega

theorem size_pos_of_idx {shape i : List Nat} (h : IsIdx shape i) : 0 < size shape := by
  induction h with
  | nil => simp [size]
  | cons h _ ih => exact Nat.mul_pos (by omega) ih

theorem ravel_lt {shape i : List Nat} (h : IsIdx shape i) : ravel shape i < size shape := by
  induction h with
  | nil => simp [size, ravel]
  | @cons a n is ns h _ ih =>
    simp only [ravel, size]
    have : (a + 1) * size ns ≤ n * size ns := Nat.mul_le_mul_right _ h
    rw [Nat.add_mul] at this
    omega

theorem unravel_ravel {shape i : List Nat} (h : IsIdx shape i) : unravel shape (ravel shape i) = i := by
  induction h with
  | nil => rfl
  | @cons a n is ns h h' ih =>
    have hp := size_pos_of_idx h'
    have hl := ravel_lt h'
    simp only [ravel, unravel]
    rw [Nat.mul_comm a, Nat.mul_add_div hp, Nat.div_eq_of_lt hl, Nat.mul_add_mod, Nat.mod_eq_of_lt hl, ih]
    simp

/-- The element at the position of its indices. -/
theorem flat_ravel (a : GArr α) {i : List Nat} (h : IsIdx a.shape i) : a.flat (ravel a.shape i) = a.at i := by
  unfold GArr.flat
  rw [unravel_ravel h]

/-- Memory order is index order in contiguous arrays. -/
theorem ptr_ravel (a : GArr α) (hc : a.Contiguous) {i : List Nat} (h : IsIdx a.shape i) : a.ptr (ravel a.shape i) = a.at i := by
  unfold GArr.ptr GArr.at
  rw [hc i h]

theorem contiguous_dense (shape : List Nat) (mem : Int → α) : (GArr.dense shape mem).Contiguous := by
  intro i hi
  show offset (cStrides shape) i = ravel shape i
  have hj : List.Forall₂ (· < ·) i shape := hi
  clear hi
  induction hj with
  | nil => rfl
  | cons h _ ih =>
    simp only [cStrides, offset, ravel] at ih ⊢
    rw [ih, mul_comm]
    push_cast
    rfl

/-! ### launches -/

section
variable {S V O W : Type*} [DecidableEq S] [DecidableEq O]

/-- Every launch has a result. -/
theorem launch_exists [Inhabited V] [Inhabited W] (k : Kernel S V O W) (dims block : Dim3) :
    ∃ r, LaunchOver k dims block r := by
  unfold LaunchOver
  cases gridOf dims block with
  | error e => exact ⟨_, rfl⟩
  | ok grid =>
    unfold Launch
    by_cases h : grid.launchable
    · simp only [if_pos h]
      let sh : Dim3 → S → V := fun b => writeAll (fun _ => default) (block.all.flatMap (k.load b))
      exact ⟨_, writeAll (fun _ => default) (grid.all.flatMap fun b => block.all.flatMap fun t => k.body b t (sh b)), rfl,
        fun _ _ => default, sh, fun _ => default, _, fun b _ => ⟨_, List.Perm.refl _, rfl⟩, List.Perm.refl _, rfl⟩
    · exact ⟨.error .runtimeError, by simp only [if_neg h]⟩

/-- The number of blocks along every axis. -/
def blocks (dims block : Dim3) : Dim3 :=
  ⟨(dims.x + block.x - 1) / block.x, (dims.y + block.y - 1) / block.y, (dims.z + block.z - 1) / block.z⟩

private theorem count_lt {n b k : Nat} (hb : 0 < b) (h : n ≤ k * b) : (n + b - 1) / b < k + 1 := by
  rw [Nat.div_lt_iff_lt_mul hb, Nat.succ_mul]
  omega

private theorem count_pos {n b : Nat} (hb : 0 < b) (h : 0 < n) : 0 < (n + b - 1) / b := Nat.div_pos (by omega) hb

private theorem count_ge {n b k : Nat} (hb : 0 < b) (h : k * b < n) : k < (n + b - 1) / b := by
  rw [Nat.lt_div_iff_mul_lt hb]
  have := Nat.mul_comm k b
  omega

theorem launchable_iff {dims block : Dim3} (hbx : 0 < block.x) (hby : 0 < block.y) (hbz : 0 < block.z) :
    (blocks dims block).launchable = true ↔ Fits dims block := by
  constructor
  · intro hl
    simp only [Dim3.launchable, Bool.and_eq_true, decide_eq_true_eq] at hl
    unfold blocks at hl
    dsimp only at hl
    have key : ∀ n b K : Nat, 0 < b → 0 < (n + b - 1) / b → (n + b - 1) / b ≤ K → 0 < n ∧ n ≤ K * b := by
      intro n b K hb h1 h2
      constructor
      · by_contra h0
        have : n = 0 := by omega
        subst this
        rw [Nat.div_eq_of_lt (by omega)] at h1
        omega
      · by_contra h0
        have := count_ge hb (not_le.1 h0)
        omega
    exact ⟨key _ _ _ hbx (by omega) (by omega), key _ _ _ hby (by omega) (by omega), key _ _ _ hbz (by omega) (by omega)⟩
  · rintro ⟨⟨h1, h2⟩, ⟨h3, h4⟩, h5, h6⟩
    have a1 := count_lt hbx h2
    have a2 := count_lt hby h4
    have a3 := count_lt hbz h6
    have b1 := count_pos hbx h1
    have b2 := count_pos hby h3
    have b3 := count_pos hbz h5
    simp only [Dim3.launchable, Bool.and_eq_true, decide_eq_true_eq]
    unfold blocks
    dsimp only
    omega

theorem launch_iff {k : Kernel S V O W} {dims block : Dim3} {r : Except PyErr (O → W)} (hbx : 0 < block.x)
    (hby : 0 < block.y) (hbz : 0 < block.z) (hf : Fits dims block) :
    LaunchOver k dims block r ↔ ∃ out, r = .ok out ∧ Runs k (blocks dims block) block out := by
  unfold LaunchOver
  rw [gridOf_eq _ _ hbx hby hbz]
  dsimp only
  unfold Launch
  change (if (blocks dims block).launchable = true then _ else _) ↔ _
  rw [if_pos ((launchable_iff hbx hby hbz).2 hf)]
  rfl

theorem launch_ok {k : Kernel S V O W} {dims block : Dim3} {r : Except PyErr (O → W)} (hbx : 0 < block.x)
    (hby : 0 < block.y) (hbz : 0 < block.z) (hf : Fits dims block) (hr : LaunchOver k dims block r) :
    ∃ out, r = .ok out ∧ Runs k (blocks dims block) block out := (launch_iff hbx hby hbz hf).1 hr

theorem launch_error {k : Kernel S V O W} {dims block : Dim3} {r : Except PyErr (O → W)} (hbx : 0 < block.x)
    (hby : 0 < block.y) (hbz : 0 < block.z) (hf : ¬ Fits dims block) (hr : LaunchOver k dims block r) :
    r = .error .runtimeError := by
  unfold LaunchOver at hr
  rw [gridOf_eq _ _ hbx hby hbz] at hr
  dsimp only at hr
  unfold Launch at hr
  change (if (blocks dims block).launchable = true then _ else _) at hr
  rw [if_neg fun h => hf ((launchable_iff hbx hby hbz).1 h)] at hr
  exact hr

theorem launch2_iff {k : Kernel2 S V O W} {dims block : Dim3} {r : Except PyErr (O → W)} (hbx : 0 < block.x)
    (hby : 0 < block.y) (hbz : 0 < block.z) (hf : Fits dims block) :
    LaunchOver2 k dims block r ↔ ∃ out, r = .ok out ∧ Runs2 k (blocks dims block) block out := by
  unfold LaunchOver2
  rw [gridOf_eq _ _ hbx hby hbz]
  dsimp only
  change (if (blocks dims block).launchable = true then _ else _) ↔ _
  rw [if_pos ((launchable_iff hbx hby hbz).2 hf)]
  rfl

theorem launch2_error {k : Kernel2 S V O W} {dims block : Dim3} {r : Except PyErr (O → W)} (hbx : 0 < block.x)
    (hby : 0 < block.y) (hbz : 0 < block.z) (hf : ¬ Fits dims block) (hr : LaunchOver2 k dims block r) :
    r = .error .runtimeError := by
  unfold LaunchOver2 at hr
  rw [gridOf_eq _ _ hbx hby hbz] at hr
  dsimp only at hr
  change (if (blocks dims block).launchable = true then _ else _) at hr
  rw [if_neg fun h => hf ((launchable_iff hbx hby hbz).1 h)] at hr
  exact hr

/-- An execution with given initial contents of memory. -/
theorem runs2_exists (k : Kernel2 S V O W) (grid block : Dim3) (init : Dim3 → S → V) (out0 : O → W) :
    ∃ out, Runs2 k grid block out := by
  let mid : Dim3 → S → V := fun b => writeAll (init b) (block.all.flatMap (k.first b))
  let sh : Dim3 → S → V := fun b => writeAll (mid b) (block.all.flatMap ((k.rest mid).load b))
  exact ⟨_, init, mid, sh, out0, _, fun b _ => ⟨_, List.Perm.refl _, rfl⟩, fun b _ => ⟨_, List.Perm.refl _, rfl⟩,
    List.Perm.refl _, rfl⟩

theorem launch2_exists [Inhabited V] [Inhabited W] (k : Kernel2 S V O W) (dims block : Dim3) :
    ∃ r, LaunchOver2 k dims block r := by
  unfold LaunchOver2
  cases gridOf dims block with
  | error e => exact ⟨_, rfl⟩
  | ok grid =>
    dsimp only
    by_cases h : grid.launchable
    · obtain ⟨out, hout⟩ := runs2_exists k grid block (fun _ _ => default) fun _ => default
      exact ⟨.ok out, by rw [if_pos h]; exact ⟨out, rfl, hout⟩⟩
    · exact ⟨.error .runtimeError, by rw [if_neg h]⟩

/-- A cell after some writes in any order, when those to it all write the same value. -/
theorem memory_eq {C T : Type*} [DecidableEq C] {block : Dim3} {f : Dim3 → List (C × T)} {init m : C → T} {w : List (C × T)}
    (hw : w.Perm (block.all.flatMap f)) (he : m = writeAll init w) (s : C) (v : T)
    (hu : ∀ t ∈ block.all, ∀ e ∈ f t, e.1 = s → e.2 = v) (hx : ∃ t ∈ block.all, (s, v) ∈ f t) : m s = v := by
  subst he
  refine writeAll_some _ _ _ _ ?_ ?_
  · intro e he1 he2
    rw [hw.mem_iff, List.mem_flatMap] at he1
    obtain ⟨t, ht, he1⟩ := he1
    exact hu t ht e he1 he2
  · obtain ⟨t, ht, h⟩ := hx
    exact ⟨_, by rw [hw.mem_iff, List.mem_flatMap]; exact ⟨t, ht, h⟩, rfl⟩

/-- A cell that no thread writes. -/
theorem memory_keep {C T : Type*} [DecidableEq C] {block : Dim3} {f : Dim3 → List (C × T)} {init m : C → T} {w : List (C × T)}
    (hw : w.Perm (block.all.flatMap f)) (he : m = writeAll init w) (s : C)
    (hu : ∀ t ∈ block.all, ∀ e ∈ f t, e.1 ≠ s) : m s = init s := by
  subst he
  refine writeAll_none _ _ _ ?_
  intro e he1
  rw [hw.mem_iff, List.mem_flatMap] at he1
  obtain ⟨t, ht, he1⟩ := he1
  exact hu t ht e he1

omit [DecidableEq O] in
/-- A shared cell after the barrier, when the threads that write it all write the same value. -/
theorem shared_eq {k : Kernel S V O W} {block b : Dim3} {init sh : S → V} {w : List (S × V)}
    (hw : w.Perm (block.all.flatMap (k.load b))) (he : sh = writeAll init w) (s : S) (v : V)
    (hu : ∀ t ∈ block.all, ∀ e ∈ k.load b t, e.1 = s → e.2 = v) (hx : ∃ t ∈ block.all, (s, v) ∈ k.load b t) : sh s = v := by
  subst he
  refine writeAll_some _ _ _ _ ?_ ?_
  · intro e he1 he2
    rw [hw.mem_iff, List.mem_flatMap] at he1
    obtain ⟨t, ht, he1⟩ := he1
    exact hu t ht e he1 he2
  · obtain ⟨t, ht, h⟩ := hx
    exact ⟨_, by rw [hw.mem_iff, List.mem_flatMap]; exact ⟨t, ht, h⟩, rfl⟩

omit [DecidableEq S] in
/-- A cell of the output, when the threads that write it all write the same value. -/
theorem out_eq {k : Kernel S V O W} {grid block : Dim3} {sh : Dim3 → S → V} {out0 : O → W} {ws : List (O × W)}
    (hw : ws.Perm (grid.all.flatMap fun b => block.all.flatMap fun t => k.body b t (sh b))) (o : O) (v : W)
    (hu : ∀ b ∈ grid.all, ∀ t ∈ block.all, ∀ e ∈ k.body b t (sh b), e.1 = o → e.2 = v)
    (hx : ∃ b ∈ grid.all, ∃ t ∈ block.all, ∃ u, (o, u) ∈ k.body b t (sh b)) : writeAll out0 ws o = v := by
  refine writeAll_some _ _ _ _ ?_ ?_
  · intro e he1 he2
    rw [hw.mem_iff, List.mem_flatMap] at he1
    obtain ⟨b, hb, he1⟩ := he1
    obtain ⟨t, ht, he1⟩ := List.mem_flatMap.1 he1
    exact hu b hb t ht e he1 he2
  · obtain ⟨b, hb, t, ht, u, h⟩ := hx
    exact ⟨_, by rw [hw.mem_iff, List.mem_flatMap]; exact ⟨b, hb, List.mem_flatMap.2 ⟨t, ht, h⟩⟩, rfl⟩

end

end Verif.Cuda
