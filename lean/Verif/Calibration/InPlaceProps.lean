/-
Property C111: sharing and reuse of `time_bin_indices`.
-/
import Verif.Calibration.InPlace
import Verif.Calibration.Props

set_option autoImplicit false

namespace Verif.Calibration

/-! ### Helper lemmas -/

theorem regMin_nat (idx : Nat → Nat) (r : Region) (hn : 0 < r.n) :
    ∃ m, IsMin r.n (fun t => idx (r.off + t)) m ∧ regMin (fun x => (idx x : Int)) r = (m : Int) := by
  obtain ⟨m, hm⟩ := exists_min (fun t => idx (r.off + t)) hn
  refine ⟨m, hm, ?_⟩
  obtain ⟨off, n⟩ := r
  obtain ⟨k, rfl⟩ : ∃ k, n = k + 1 := ⟨n - 1, by simp only at hn; omega⟩
  have h : minIdx (k + 1) (fun t => idx (off + t)) = .ok (forRange k (idx (off + 0)) fun i a =>
    min a (idx (off + (i + 1)))) := rfl
  have e := (minIdx_spec h).unique hm
  unfold regMin
  rw [← e]
  simp only [Nat.add_sub_cancel, Nat.add_zero]
  clear e h hm hn
  induction k with
  | zero => rfl
  | succ k ih => rw [forRange_succ, forRange_succ, ih, Nat.cast_min]

/-- Two blocks have no entry in common. -/
def Region.Apart (a b : Region) : Prop := a.off + a.n ≤ b.off ∨ b.off + b.n ≤ a.off

/-- What holds of a task that is never disturbed. -/
def TaskInv (g : Nat → Int) (r : Region) (mem : Nat → Int) : PC → Prop
  | .start => ∀ t < r.n, mem (r.off + t) = g (r.off + t)
  | .shift m k => 0 < r.n ∧ m = regMin g r ∧
      ∀ t < r.n, mem (r.off + t) = if t < k then g (r.off + t) - m else g (r.off + t)
  | .loop k lo => 0 < r.n ∧ k ≤ r.n ∧ (∀ t < r.n, mem (r.off + t) = g (r.off + t) - regMin g r) ∧
      ∀ t < k, lo t = g (r.off + t) - regMin g r
  | .failed => r.n = 0

theorem regMin_congr {g mem : Nat → Int} {r : Region} (hn : 0 < r.n) (h : ∀ t < r.n, mem (r.off + t) = g (r.off + t)) :
    regMin mem r = regMin g r := by
  unfold regMin
  rw [show mem r.off = g r.off from h 0 hn]
  refine forRange_congr fun i hi s => ?_
  rw [h (i + 1) (by omega)]

theorem taskInv_step {g : Nat → Int} {r : Region} {mem mem' : Nat → Int} {pc pc' : PC} (h : TaskInv g r mem pc)
    (hs : taskStep r mem pc = some (mem', pc')) : TaskInv g r mem' pc' := by
  cases pc with
  | start =>
    simp only [taskStep] at hs
    split at hs
    · cases hs; assumption
    · cases hs
      rename_i hn
      exact ⟨by omega, regMin_congr (by omega) h, fun t ht => by rw [if_neg (by omega)]; exact h t ht⟩
  | shift m k =>
    obtain ⟨h0, h1, h2⟩ := h
    simp only [taskStep] at hs
    split at hs
    · rename_i hk
      cases hs
      refine ⟨h0, h1, fun t ht => ?_⟩
      by_cases htk : t = k
      · subst htk
        rw [Function.update_self, h2 t ht, if_neg (by omega), if_pos (by omega)]
      · rw [Function.update_of_ne (by omega), h2 t ht]
        simp only [show (t < k ↔ t < k + 1) by omega]
    · cases hs
      refine ⟨h0, by omega, fun t ht => ?_, fun t ht => by omega⟩
      rw [h2 t ht, if_pos (by omega), h1]
  | loop k lo =>
    obtain ⟨h0, h1, h2, h3⟩ := h
    simp only [taskStep] at hs
    split at hs
    · rename_i hk
      cases hs
      refine ⟨h0, by omega, h2, fun t ht => ?_⟩
      by_cases htk : t = k
      · subst htk
        rw [Function.update_self, h2 t hk]
      · rw [Function.update_of_ne htk]
        exact h3 t (by omega)
    · cases hs
  | failed => cases hs

/-- A step only changes entries of its own block, by its own minimum. -/
theorem taskStep_frame {g : Nat → Int} {r : Region} {mem mem' : Nat → Int} {pc pc' : PC} (h : TaskInv g r mem pc)
    (hs : taskStep r mem pc = some (mem', pc')) (x : Nat)
    (hx : ¬ (r.off ≤ x ∧ x < r.off + r.n) ∨ regMin g r = 0) : mem' x = mem x := by
  cases pc with
  | start =>
    simp only [taskStep] at hs
    split at hs <;> cases hs <;> rfl
  | shift m k =>
    obtain ⟨h0, h1, h2⟩ := h
    simp only [taskStep] at hs
    split at hs
    · cases hs
      by_cases hxk : x = r.off + k
      · subst hxk
        rcases hx with hx | hx
        · omega
        · rw [Function.update_self, h1, hx, sub_zero]
      · rw [Function.update_of_ne hxk]
    · cases hs; rfl
  | loop k lo =>
    simp only [taskStep] at hs
    split at hs <;> cases hs
    rfl
  | failed => cases hs

theorem taskInv_mem {g : Nat → Int} {r : Region} {mem mem' : Nat → Int} {pc : PC} (h : TaskInv g r mem pc)
    (hm : ∀ t < r.n, mem' (r.off + t) = mem (r.off + t)) : TaskInv g r mem' pc := by
  cases pc with
  | start => exact fun t ht => (hm t ht).trans (h t ht)
  | shift m k => exact ⟨h.1, h.2.1, fun t ht => (hm t ht).trans (h.2.2 t ht)⟩
  | loop k lo => exact ⟨h.1, h.2.1, fun t ht => (hm t ht).trans (h.2.2.1 t ht), h.2.2.2⟩
  | failed => exact h

theorem sys_inv {ntasks : Nat} {reg : Nat → Region} {g : Nat → Int}
    (hsep : ∀ i < ntasks, ∀ j < ntasks, i ≠ j → (reg i).Apart (reg j) ∨ regMin g (reg j) = 0)
    {s : Sys} (h : SysReach ntasks reg g s) : ∀ i < ntasks, TaskInv g (reg i) s.mem (s.pc i) := by
  induction h with
  | init => exact fun i _ t _ => rfl
  | step _ hs ih =>
    obtain ⟨j, hj, mem, pc, h1, rfl⟩ := hs
    intro i hi
    by_cases hij : i = j
    · subst hij
      simp only [Function.update_self]
      exact taskInv_step (ih i hi) h1
    · simp only [Function.update_of_ne hij]
      refine taskInv_mem (ih i hi) fun t ht => taskStep_frame (ih j hj) h1 _ ?_
      rcases hsep i hi j hj hij with h | h
      · left
        rcases h with h | h <;> omega
      · exact Or.inr h

/-! ### C111 -/

/-- C111 (partial). The user's array holds the first rows `idx`. If any two tasks work on blocks without
common entries, or on blocks starting at row 0, then under every schedule every finished task used the
first rows it would have used alone (`shiftIdx` of its block). Missing: tasks sharing any other block,
for which it is false (`C111_race_violated`). -/
theorem C111_schedules_partial (ntasks : Nat) (reg : Nat → Region) (idx : Nat → Nat)
    (hsep : ∀ i < ntasks, ∀ j < ntasks, i ≠ j →
      ((reg i).off + (reg i).n ≤ (reg j).off ∨ (reg j).off + (reg j).n ≤ (reg i).off) ∨
      ∃ t < (reg j).n, idx ((reg j).off + t) = 0)
    (s : Sys) (h : SysReach ntasks reg (fun x => (idx x : Int)) s) (i : Nat) (hi : i < ntasks)
    (lo : Nat → Int) (hdone : s.pc i = .loop (reg i).n lo) :
    ∃ f, shiftIdx (reg i).n (fun t => idx ((reg i).off + t)) = .ok f ∧ ∀ t < (reg i).n, lo t = (f t : Int) := by
  have hsep' : ∀ i < ntasks, ∀ j < ntasks, i ≠ j →
      (reg i).Apart (reg j) ∨ regMin (fun x => (idx x : Int)) (reg j) = 0 := by
    intro i hi j hj hij
    rcases hsep i hi j hj hij with h | ⟨t, ht, h0⟩
    · exact Or.inl h
    · right
      obtain ⟨m, hm, e⟩ := regMin_nat idx (reg j) (by omega)
      have := hm.2 t ht
      simp only at this
      rw [e]
      omega
  have hinv := sys_inv hsep' h i hi
  rw [hdone] at hinv
  obtain ⟨hn, _, _, h3⟩ := hinv
  obtain ⟨m, hm, e⟩ := regMin_nat idx (reg i) hn
  refine ⟨_, shiftIdx_ok hm, fun t ht => ?_⟩
  have := hm.2 t ht
  rw [h3 t ht, e]
  simp only at this ⊢
  omega

/-- Runs of one task from the start to the end (`k` steps). -/
def soloRun (r : Region) (mem : Nat → Int) : Nat → (Nat → Int) × PC
  | 0 => (mem, .start)
  | k + 1 =>
    let s := soloRun r mem k
    match taskStep r s.1 s.2 with
    | some s' => s'
    | none => s

theorem soloRun_inv (r : Region) (g : Nat → Int) (k : Nat) :
    TaskInv g r (soloRun r g k).1 (soloRun r g k).2 ∧
    (∀ x, ¬ (r.off ≤ x ∧ x < r.off + r.n) → (soloRun r g k).1 x = g x) := by
  induction k with
  | zero => exact ⟨fun t _ => rfl, fun x _ => rfl⟩
  | succ k ih =>
    simp only [soloRun]
    split
    · rename_i s' hs
      exact ⟨taskInv_step ih.1 hs, fun x hx => (taskStep_frame ih.1 hs x (Or.inl hx)).trans (ih.2 x hx)⟩
    · exact ih

/-- C111. A call on a non-empty block running alone leaves its block shifted by its minimum, uses the
shifted rows, and does not touch anything else; `k` is any number of steps after which it has finished. -/
theorem C111_alone (idx : Nat → Nat) (r : Region) (k : Nat) (lo : Nat → Int)
    (hdone : (soloRun r (fun x => (idx x : Int)) k).2 = .loop r.n lo) :
    (∃ f, shiftIdx r.n (fun t => idx (r.off + t)) = .ok f ∧ ∀ t < r.n,
      lo t = (f t : Int) ∧ (soloRun r (fun x => (idx x : Int)) k).1 (r.off + t) = (f t : Int)) ∧
    ∀ x, ¬ (r.off ≤ x ∧ x < r.off + r.n) → (soloRun r (fun x => (idx x : Int)) k).1 x = idx x := by
  obtain ⟨h1, h2⟩ := soloRun_inv r (fun x => (idx x : Int)) k
  refine ⟨?_, h2⟩
  rw [hdone] at h1
  obtain ⟨hn, _, h3, h4⟩ := h1
  obtain ⟨m, hm, e⟩ := regMin_nat idx r hn
  refine ⟨_, shiftIdx_ok hm, fun t ht => ?_⟩
  have := hm.2 t ht
  rw [h3 t ht, h4 t ht, e]
  simp only at this ⊢
  omega

theorem soloRun_shift (r : Region) (g : Nat → Int) (hn : 0 < r.n) (k : Nat) (hk : k ≤ r.n) :
    (soloRun r g (k + 1)).2 = .shift (regMin g r) k := by
  induction k with
  | zero => simp [soloRun, taskStep, show r.n ≠ 0 by omega]
  | succ k ih =>
    rw [soloRun]
    simp only [ih (by omega), taskStep, show k < r.n by omega, if_true]

theorem soloRun_loop (r : Region) (g : Nat → Int) (hn : 0 < r.n) (k : Nat) (hk : k ≤ r.n) :
    ∃ lo, (soloRun r g (r.n + 2 + k)).2 = .loop k lo := by
  induction k with
  | zero =>
    refine ⟨fun _ => 0, ?_⟩
    rw [Nat.add_zero, soloRun]
    simp only [soloRun_shift r g hn r.n le_rfl, taskStep, lt_irrefl, if_false]
  | succ k ih =>
    obtain ⟨lo, h⟩ := ih (by omega)
    rw [← Nat.add_assoc, soloRun]
    simp only [h, taskStep, show k < r.n by omega, if_true]
    exact ⟨_, rfl⟩

/-- C111. A call on a non-empty block running alone finishes. -/
theorem C111_finishes (r : Region) (g : Nat → Int) (hn : 0 < r.n) :
    ∃ k lo, (soloRun r g k).2 = .loop r.n lo :=
  ⟨_, soloRun_loop r g hn r.n le_rfl⟩

/-- C111. Calls one after the other on the same array all use the same rows: the second call on the
array left behind by the first uses the rows the first one used. -/
theorem C111_again (idx : Nat → Nat) (r : Region) (k k' : Nat) (lo lo' : Nat → Int)
    (hdone : (soloRun r (fun x => (idx x : Int)) k).2 = .loop r.n lo)
    (hdone' : (soloRun r (soloRun r (fun x => (idx x : Int)) k).1 k').2 = .loop r.n lo') :
    ∀ t < r.n, lo' t = lo t := by
  obtain ⟨⟨f, hf, hlo⟩, hout⟩ := C111_alone idx r k lo hdone
  -- the array left behind, as natural numbers
  let idx' : Nat → Nat := fun x => if r.off ≤ x ∧ x < r.off + r.n then f (x - r.off) else idx x
  have hmem : (soloRun r (fun x => (idx x : Int)) k).1 = fun x => (idx' x : Int) := by
    funext x
    by_cases hx : r.off ≤ x ∧ x < r.off + r.n
    · have := (hlo (x - r.off) (by omega)).2
      rw [show r.off + (x - r.off) = x by omega] at this
      simp only [idx', if_pos hx, this]
    · simp only [idx', if_neg hx, hout x hx]
  rw [hmem] at hdone'
  obtain ⟨⟨f', hf', hlo'⟩, _⟩ := C111_alone idx' r k' lo' hdone'
  have hn : 0 < r.n := by
    by_contra h0
    rw [show r.n = 0 by omega] at hf
    cases hf
  obtain ⟨m, hm⟩ := exists_min (fun t => idx (r.off + t)) hn
  rw [shiftIdx_ok hm] at hf
  cases hf
  have hm' : IsMin r.n (fun t => idx' (r.off + t)) 0 := by
    obtain ⟨⟨t, ht, e⟩, _⟩ := hm
    refine ⟨⟨t, ht, ?_⟩, fun _ _ => Nat.zero_le _⟩
    simp only at e
    simp only [idx', show r.off ≤ r.off + t ∧ r.off + t < r.off + r.n by omega, and_self, if_true,
      show r.off + t - r.off = t by omega, e, Nat.sub_self]
  rw [shiftIdx_ok hm'] at hf'
  cases hf'
  intro t ht
  rw [(hlo' t ht).1, (hlo t ht).1]
  simp only [idx', show r.off ≤ r.off + t ∧ r.off + t < r.off + r.n by omega, and_self, if_true,
    show r.off + t - r.off = t by omega, Nat.sub_zero]

/-- C111 is violated when tasks share a block that does not start at row 0: two tasks (two channel
chunks) on the second time chunk of an array with first rows 0 and 3. Both read the minimum 3, both
subtract it, and a finished task uses row -3 instead of row 0. -/
theorem C111_race_violated :
    ∃ s, SysReach 2 (fun _ => ⟨1, 1⟩) (fun x => ((fun t => 3 * t : Nat → Nat) x : Int)) s ∧
      ∃ lo, s.pc 0 = .loop 1 lo ∧ lo 0 = -3 ∧
        ∃ f, shiftIdx 1 (fun t => (fun t => 3 * t : Nat → Nat) (1 + t)) = .ok f ∧ f 0 = 0 := by
  have h0 := SysReach.init (ntasks := 2) (reg := fun _ => ⟨1, 1⟩)
    (g := fun x => ((fun t => 3 * t : Nat → Nat) x : Int))
  have h1 := h0.step ⟨0, by omega, _, _, rfl, rfl⟩
  have h2 := h1.step ⟨1, by omega, _, _, rfl, rfl⟩
  have h3 := h2.step ⟨0, by omega, _, _, rfl, rfl⟩
  have h4 := h3.step ⟨1, by omega, _, _, rfl, rfl⟩
  have h5 := h4.step ⟨0, by omega, _, _, rfl, rfl⟩
  have h6 := h5.step ⟨0, by omega, _, _, rfl, rfl⟩
  exact ⟨_, h6, _, rfl, rfl, _, rfl, rfl⟩

/-- C111 is violated by reusing the array after a chunked computation: two time chunks of two bins with
first rows 0, 2, 4, 6, processed one after the other without any race. The array then holds 0, 2, 0, 2,
and `corrupt_vis` on the whole of it leaves the rows from 4 on at zero. -/
theorem C111_reuse_violated :
    ∃ g : Nat → Nat, g = (fun t => 2 * t) ∧
      (∀ k1 k2 lo1 lo2,
        (soloRun ⟨0, 2⟩ (fun x => (g x : Int)) k1).2 = .loop 2 lo1 →
        (soloRun ⟨2, 2⟩ (soloRun ⟨0, 2⟩ (fun x => (g x : Int)) k1).1 k2).2 = .loop 2 lo2 →
        ∀ t < 4, (soloRun ⟨2, 2⟩ (soloRun ⟨0, 2⟩ (fun x => (g x : Int)) k1).1 k2).1 t = ((2 * (t % 2) : Nat) : Int)) ∧
      ∃ V W : Nat → Nat → Nat → ℂ,
        corruptVis 4 g (fun _ => 2) (fun _ => 0) (fun _ => 1) 1 1 (.five fun _ _ _ _ _ => (1 : ℂ))
          (.four fun _ _ _ _ => 1) = .ok (.three V) ∧ V 5 0 0 = 1 ∧
        corruptVis 4 (fun t => 2 * (t % 2)) (fun _ => 2) (fun _ => 0) (fun _ => 1) 1 1
          (.five fun _ _ _ _ _ => (1 : ℂ)) (.four fun _ _ _ _ => 1) = .ok (.three W) ∧ W 5 0 0 = 0 := by
  refine ⟨_, rfl, ?_, _, _, rfl, ?_, rfl, ?_⟩
  · intro k1 k2 lo1 lo2 h1 h2 t ht
    obtain ⟨⟨f1, hf1, e1⟩, o1⟩ := C111_alone (fun t => 2 * t) ⟨0, 2⟩ k1 lo1 h1
    have hf1' : f1 = fun t => 2 * t := by
      rw [shiftIdx_ok (m := 0) ⟨⟨0, by simp, rfl⟩, fun _ _ => Nat.zero_le _⟩] at hf1
      cases hf1
      funext t; simp
    have hmem : (soloRun ⟨0, 2⟩ (fun x => ((fun t => 2 * t : Nat → Nat) x : Int)) k1).1 =
        fun x => ((fun t => 2 * t : Nat → Nat) x : Int) := by
      funext x
      by_cases hx : x < 2
      · have := (e1 x hx).2
        rw [hf1'] at this
        simpa using this
      · exact o1 x (by simp only; omega)
    rw [hmem] at h2 ⊢
    obtain ⟨⟨f2, hf2, e2⟩, o2⟩ := C111_alone (fun t => 2 * t) ⟨2, 2⟩ k2 lo2 h2
    have hf2' : f2 = fun t => 2 * t := by
      rw [shiftIdx_ok (m := 4) ⟨⟨0, by simp, rfl⟩, fun t _ => by simp only; omega⟩] at hf2
      cases hf2
      funext t; simp only; omega
    by_cases hx : t < 2
    · rw [o2 t (by simp only; omega), show t % 2 = t by omega]
    · have := (e2 (t - 2) (by simp only; omega)).2
      simp only [show 2 + (t - 2) = t by omega] at this
      rw [this, hf2']
      congr 1
      simp only
      omega
  · simp [binLoop, forRange, upd2, jonesMulDD, List.range_succ]
  · simp [binLoop, forRange, upd2, jonesMulDD, List.range_succ]

/-- Two blocks of two bins without common entries, and two tasks on the first block, meet the hypotheses of
`C111_schedules_partial`. -/
example : ∀ i < 3, ∀ j < 3, i ≠ j →
    let reg : Nat → Region := fun i => if i = 2 then ⟨2, 2⟩ else ⟨0, 2⟩
    let idx : Nat → Nat := fun t => 2 * t
    ((reg i).off + (reg i).n ≤ (reg j).off ∨ (reg j).off + (reg j).n ≤ (reg i).off) ∨
      ∃ t < (reg j).n, idx ((reg j).off + t) = 0 := by
  decide

end Verif.Calibration
