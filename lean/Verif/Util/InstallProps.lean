/- C125: header files are installed once, completely and from the published archive. -/
import Verif.Util.InstallLemmas2
import Mathlib.Tactic.FinCases

set_option autoImplicit false

namespace Verif.Install

variable {P B H : Type} [DecidableEq P] [DecidableEq H]

/-- A run without crashes keeps the invariant. -/
theorem Inv'.reach {c : Cfg P B H} {p : Nat} {s s' : St P B} (h : Inv' c p s) (hs : Reach c (· = p) False s s') :
    Inv' c p s' := by
  induction hs with
  | refl => exact h
  | tail _ hn ih =>
    match hn with
    | .step q t _ _ hq hs =>
      have hq : q = p := hq
      rw [hq] at hs
      exact ih.step hs
    | .crash q _ hq hc => exact hc.elim

/-- Once the flag is set, the directory never changes and the flag stays set. -/
theorem Inv.forever {c : Cfg P B H} (hm : CheckMono c) (hr : c.rename = true) {p : Nat} {s s' : St P B} (h : Inv c p s)
    {crashes : Prop} (hs : Reach c (· = p) crashes s s') (hf : (s.proc p).flag = true) :
    s'.dir = s.dir ∧ (s'.proc p).flag = true := by
  induction hs with
  | refl => exact ⟨rfl, hf⟩
  | tail hsb hn ih =>
    have hi := h.reach hm hr hsb
    match hn with
    | .step q t _ _ hq hs =>
      have hq : q = p := hq
      rw [hq] at hs
      have := hi.toInv'.stable hs ih.2
      exact ⟨this.1.trans ih.1, this.2⟩
    | .crash q _ hq hc =>
      have hq : q = p := hq
      rw [hq]
      exact ⟨ih.1, by simpa [St.restart] using hi.flag ih.2⟩

theorem Inv'.forever {c : Cfg P B H} {p : Nat} {s s' : St P B} (h : Inv' c p s)
    (hs : Reach c (· = p) False s s') (hf : (s.proc p).flag = true) : s'.dir = s.dir ∧ (s'.proc p).flag = true := by
  induction hs with
  | refl => exact ⟨rfl, hf⟩
  | tail hsb hn ih =>
    have hi := h.reach hsb
    match hn with
    | .step q t _ _ hq hs =>
      have hq : q = p := hq
      rw [hq] at hs
      have := hi.stable hs ih.2
      exact ⟨this.1.trans ih.1, this.2⟩
    | .crash q _ hq hc => exact hc.elim

/-- C125. One process, any number of threads, any schedule, any answers of the network, any exceptions, and the process
killed and started again at any points. If the temporary directory is on the same file system, then when a call returns,
the directory holds exactly the files of an archive with the published hash, and its contents never change again.
Not claimed: other processes that install at the same time, and a move between file systems
(`C125_processes_violated`, `C125_crash_violated`). -/
theorem C125_complete_partial (c : Cfg P B H) (hm : CheckMono c) (hr : c.rename = true) (p : Nat) (dir : Files P B)
    (archive : Option B) (h0 : c.check dir = true → Complete c dir) (s : St P B)
    (hs : Reach c (· = p) True (start c dir archive) s) (t : Nat) (ht : s.pc p t = .returned) :
    Complete c s.dir ∧ ∀ s', Reach c (· = p) True s s' → s'.dir = s.dir := by
  have hi := (Inv.start c p dir archive h0).reach hm hr hs
  have hf : (s.proc p).flag = true := by
    have := hi.at_pc t
    rw [ht] at this
    exact this
  exact ⟨hi.complete (hi.flag hf), fun s' hs' => (hi.forever hm hr hs' hf).1⟩

/-- C125. The same for a process that is not killed, whichever way the directory is moved. -/
theorem C125_no_crash (c : Cfg P B H) (p : Nat) (dir : Files P B)
    (archive : Option B) (h0 : c.check dir = true → Complete c dir) (s : St P B)
    (hs : Reach c (· = p) False (start c dir archive) s) (t : Nat) (ht : s.pc p t = .returned) :
    Complete c s.dir ∧ ∀ s', Reach c (· = p) False s s' → s'.dir = s.dir := by
  have hi := (Inv'.start c p dir archive h0).reach hs
  have hf : (s.proc p).flag = true := by
    have := hi.at_pc t
    rw [ht] at this
    exact this
  exact ⟨hi.flag hf, fun s' hs' => (hi.forever hs' hf).1⟩

/-- The lock is held by the thread inside the region it protects, whatever the file systems do. -/
def LockInv (p : Nat) (s : St P B) : Prop := ∀ t, Inside (s.pc p t) ↔ (s.proc p).lock = some t

omit [DecidableEq P] in
theorem LockInv.mk' {p : Nat} {s s' : St P B} (h : LockInv p s) (t : Nat) (x : PC P B)
    (hpc : s'.pc p = Function.update (s.pc p) t x)
    (hl : (Inside x ∧ (s'.proc p).lock = some t ∧ ((s.proc p).lock = none ∨ (s.proc p).lock = some t)) ∨
      (¬ Inside x ∧ (((s'.proc p).lock = none ∧ (s.proc p).lock = some t) ∨
        ((s'.proc p).lock = (s.proc p).lock ∧ ¬ Inside (s.pc p t))))) : LockInv p s' := by
  intro u
  rw [hpc]
  by_cases hu : u = t
  · subst hu
    rw [Function.update_self]
    rcases hl with ⟨h1, h2, _⟩ | ⟨h1, ⟨h2, _⟩ | ⟨h2, h3⟩⟩
    · simp [h1, h2]
    · simp [h1, h2]
    · rw [h2]
      exact ⟨fun hi => absurd hi h1, fun hi => absurd ((h u).2 hi) h3⟩
  · rw [Function.update_of_ne hu, h u]
    rcases hl with ⟨h1, h2, h3 | h3⟩ | ⟨h1, ⟨h2, h3⟩ | ⟨h2, h3⟩⟩ <;> simp [h2, h3] <;> exact fun h => hu h.symm

/-- A step of another process changes nothing of this one but the files. -/
theorem Step.other {c : Cfg P B H} {p q t : Nat} {s s' : St P B} (h : Step c q t s s') (hq : p ≠ q) :
    s'.pc p = s.pc p ∧ s'.proc p = s.proc p := by
  cases h <;> simp [St.goto, St.unlock, hq]

theorem LockInv.step {c : Cfg P B H} {p t : Nat} {s s' : St P B} (h : LockInv p s) (hs : Step c p t s s') :
    LockInv p s' := by
  have hin : Inside (s.pc p t) → (s.proc p).lock = some t := (h t).1
  have e : ∀ x : PC P B, s.pc p t = x → s.pc p = Function.update (s.pc p) t x := fun x hx => by
    rw [← hx]
    exact (Function.update_eq_self ..).symm
  cases hs with
  | call h1 => exact h.mk' t _ (goto_pc_self ..) (Or.inr ⟨id, Or.inr ⟨rfl, by rw [h1]; exact id⟩⟩)
  | quick h1 h2 => exact h.mk' t _ (goto_pc_self ..) (Or.inr ⟨id, Or.inr ⟨rfl, by rw [h1]; exact id⟩⟩)
  | slow h1 h2 => exact h.mk' t _ (goto_pc_self ..) (Or.inr ⟨id, Or.inr ⟨rfl, by rw [h1]; exact id⟩⟩)
  | leave h1 => exact h.mk' t _ (goto_pc_self ..) (Or.inr ⟨id, Or.inr ⟨rfl, by rw [h1]; exact id⟩⟩)
  | acquire h1 h2 => exact h.mk' t .check2 (goto_pc_self ..) (Or.inl ⟨trivial, by simp, Or.inl h2⟩)
  | already h1 h2 =>
    exact h.mk' t .returned (goto_pc_self ..) (Or.inr ⟨id, Or.inl ⟨by simp [St.unlock], hin (by rw [h1]; trivial)⟩⟩)
  | bad h1 h2 =>
    exact h.mk' t .idle (goto_pc_self ..) (Or.inr ⟨id, Or.inl ⟨by simp [St.unlock], hin (by rw [h1]; trivial)⟩⟩)
  | set h1 => exact h.mk' t .returned (goto_pc_self ..) (Or.inr ⟨id, Or.inl ⟨by simp, hin (by rw [h1]; trivial)⟩⟩)
  | raise h1 =>
    exact h.mk' t .idle (goto_pc_self ..) (Or.inr ⟨id, Or.inl ⟨by simp [St.unlock],
      hin (by rcases h1 with h1 | h1 | h1 | h1 | ⟨x, h1⟩ <;> rw [h1] <;> trivial)⟩⟩)
  | write b h1 => exact h
  | unlink f h1 => exact h
  | copy x f h1 h2 => exact h
  | install h1 h2 =>
    have := hin (by rw [h1]; trivial)
    exact h.mk' t _ (goto_pc_self ..) (Or.inl ⟨trivial, this, Or.inr this⟩)
  | reuse b h1 h2 h3 =>
    have := hin (by rw [h1]; trivial)
    exact h.mk' t _ (goto_pc_self ..) (Or.inl ⟨trivial, this, Or.inr this⟩)
  | fetch h1 h2 =>
    have := hin (by rw [h1]; trivial)
    exact h.mk' t _ (goto_pc_self ..) (Or.inl ⟨trivial, this, Or.inr this⟩)
  | written h1 =>
    have := hin (by rw [h1]; trivial)
    exact h.mk' t _ (goto_pc_self ..) (Or.inl ⟨trivial, this, Or.inr this⟩)
  | match' b h1 h2 h3 =>
    have := hin (by rw [h1]; trivial)
    exact h.mk' t _ (goto_pc_self ..) (Or.inl ⟨trivial, this, Or.inr this⟩)
  | opened b x h1 h2 h3 =>
    have := hin (by rw [h1]; trivial)
    exact h.mk' t _ (goto_pc_self ..) (Or.inl ⟨trivial, this, Or.inr this⟩)
  | removed h1 h2 =>
    have := hin (by rw [h1]; trivial)
    exact h.mk' t _ (goto_pc_self ..) (Or.inl ⟨trivial, this, Or.inr this⟩)
  | extracted b x h1 h2 h3 =>
    have := hin (by rw [h1]; trivial)
    exact h.mk' t _ (goto_pc_self ..) (Or.inl ⟨trivial, this, Or.inr this⟩)
  | rename x h1 h2 =>
    have := hin (by rw [h1]; trivial)
    exact h.mk' t .final (goto_pc_self ..) (Or.inl ⟨trivial, this, Or.inr this⟩)
  | copied x h1 h2 h3 =>
    have := hin (by rw [h1]; trivial)
    exact h.mk' t _ (goto_pc_self ..) (Or.inl ⟨trivial, this, Or.inr this⟩)
  | good h1 h2 =>
    have := hin (by rw [h1]; trivial)
    exact h.mk' t _ (goto_pc_self ..) (Or.inl ⟨trivial, this, Or.inr this⟩)

theorem LockInv.reach {c : Cfg P B H} {ps : Nat → Prop} {crashes : Prop} {p : Nat} {s s' : St P B} (h : LockInv p s)
    (hs : Reach c ps crashes s s') : LockInv p s' := by
  induction hs with
  | refl => exact h
  | tail _ hn ih =>
    match hn with
    | .step q t _ _ _ hs =>
      by_cases hq : p = q
      · rw [← hq] at hs
        exact ih.step hs
      · have := hs.other hq
        intro u
        rw [this.1, this.2]
        exact ih u
    | .crash q _ _ _ =>
      intro u
      by_cases hq : p = q
      · subst hq
        simp [St.restart, Inside]
      · simpa [St.restart, hq] using ih u

/-- C125. Whatever the processes do, at most one thread of a process is installing: the others wait. -/
theorem C125_exclusive (c : Cfg P B H) (ps : Nat → Prop) (crashes : Prop) (p : Nat) (dir : Files P B) (archive : Option B)
    (s : St P B) (hs : Reach c ps crashes (start c dir archive) s) (t u : Nat) (ht : Installing (s.pc p t))
    (hu : Installing (s.pc p u)) : t = u := by
  have hi : LockInv p s := LockInv.reach (fun t => by simp [start, Inside]) hs
  have e : ∀ v, Installing (s.pc p v) → Inside (s.pc p v) := fun v => by
    cases s.pc p v <;> simp [Installing, Inside]
  have := (hi t).1 (e t ht)
  rw [(hi u).1 (e u hu)] at this
  exact (Option.some.inj this).symm

/-- C125. When a call of an uninterrupted process has returned, no thread of it installs anything any more. -/
theorem C125_once (c : Cfg P B H) (p : Nat) (dir : Files P B) (archive : Option B)
    (h0 : c.check dir = true → Complete c dir) (s : St P B) (hs : Reach c (· = p) False (start c dir archive) s) (t : Nat)
    (ht : s.pc p t = .returned) (s' : St P B) (hs' : Reach c (· = p) False s s') (u : Nat) : ¬ Installing (s'.pc p u) := by
  have hi := (Inv'.start c p dir archive h0).reach hs
  have hf : (s.proc p).flag = true := by
    have := hi.at_pc t
    rw [ht] at this
    exact this
  have hf' := (hi.forever hs' hf).2
  have ha := (hi.reach hs').at_pc u
  revert ha
  cases s'.pc p u <;> simp [AtPC', Installing, hf']

/-- C125. No deadlock: whatever has happened, a thread of `cub_dir` can make a step, or it waits for a thread that can. An
exception has released the lock. -/
theorem C125_progress (c : Cfg P B H) (ps : Nat → Prop) (crashes : Prop) (p : Nat) (dir : Files P B) (archive : Option B)
    (s : St P B) (hs : Reach c ps crashes (start c dir archive) s) (t : Nat) :
    (∃ s', Step c p t s s') ∨ ∃ u s', s.pc p t = .want ∧ Inside (s.pc p u) ∧ Step c p u s s' := by
  have hi : LockInv p s := LockInv.reach (fun t => by simp [start, Inside]) hs
  have key : ∀ v, s.pc p v ≠ .want → ∃ s', Step c p v s s' := by
    intro v hv
    cases hpc : s.pc p v with
    | idle => exact ⟨_, .call _ hpc⟩
    | want => exact absurd hpc hv
    | check1 =>
      cases hf : (s.proc p).flag with
      | true => exact ⟨_, .quick _ hpc hf⟩
      | false => exact ⟨_, .slow _ hpc hf⟩
    | check2 =>
      cases hf : (s.proc p).flag with
      | true => exact ⟨_, .already _ hpc hf⟩
      | false => exact ⟨_, .install _ hpc hf⟩
    | archive =>
      by_cases h : ∃ b, s.archive = some b ∧ c.sha b = c.expected
      · obtain ⟨b, h1, h2⟩ := h
        exact ⟨_, .reuse _ b hpc h1 h2⟩
      · exact ⟨_, .fetch _ hpc fun b h1 h2 => h ⟨b, h1, h2⟩⟩
    | download => exact ⟨_, .written _ hpc⟩
    | compare => exact ⟨_, .raise _ (Or.inr (Or.inl hpc))⟩
    | openZip => exact ⟨_, .raise _ (Or.inr (Or.inr (Or.inl hpc)))⟩
    | remove =>
      by_cases h : ∀ f, s.dir f = none
      · exact ⟨_, .removed _ hpc h⟩
      · push Not at h
        obtain ⟨f, _⟩ := h
        exact ⟨_, .unlink _ f hpc⟩
    | extract => exact ⟨_, .raise _ (Or.inr (Or.inr (Or.inr (Or.inl hpc))))⟩
    | move x => exact ⟨_, .raise _ (Or.inr (Or.inr (Or.inr (Or.inr ⟨x, hpc⟩))))⟩
    | final =>
      cases hc : c.check s.dir with
      | true => exact ⟨_, .good _ hpc hc⟩
      | false => exact ⟨_, .bad _ hpc hc⟩
    | setFlag => exact ⟨_, .set _ hpc⟩
    | returned => exact ⟨_, .leave _ hpc⟩
  by_cases hw : s.pc p t = .want
  · cases hl : (s.proc p).lock with
    | none => exact Or.inl ⟨_, .acquire _ hw hl⟩
    | some u =>
      have hin := (hi u).2 hl
      obtain ⟨s', hs'⟩ := key u (by intro h; rw [h] at hin; exact hin)
      exact Or.inr ⟨u, s', hw, hin, hs'⟩
  · exact Or.inl (key t hw)

omit [DecidableEq H] in
/-- Both checks are lost by removing files, never gained. -/
theorem cub_mono (header readme : P) (v : B → Bool) (c : Cfg P B H) (hc : c.check = isCubInstalled header readme v) :
    CheckMono c := by
  intro dir f h
  rw [hc] at h ⊢
  unfold isCubInstalled at *
  by_cases h1 : header = f
  · simp [h1] at h
  · by_cases h2 : readme = f
    · simp [h2] at h
    · simpa [h1, h2] using h

omit [DecidableEq H] in
theorem trove_mono (readme : P) (c : Cfg P B H) (hc : c.check = isTroveInstalled readme) : CheckMono c := by
  intro dir f h
  rw [hc] at h ⊢
  unfold isTroveInstalled at *
  by_cases h1 : readme = f
  · simp [h1] at h
  · simpa [h1] using h

/-- C125 for `cub_dir`. -/
theorem C125_cub_partial (header readme : P) (v : B → Bool) (sha : B → H) (expected : H) (unzip : B → Option (Files P B)) (p : Nat)
    (dir : Files P B) (archive : Option B) :
    let c : Cfg P B H := ⟨isCubInstalled header readme v, sha, expected, unzip, true⟩
    (c.check dir = true → Complete c dir) → ∀ s t, Reach c (· = p) True (start c dir archive) s → s.pc p t = .returned →
      (∃ b, sha b = expected ∧ unzip b = some s.dir) ∧ (s.dir header).isSome ∧ ∃ text, s.dir readme = some text ∧ v text = true := by
  intro c h0 s t hs ht
  obtain ⟨b, h1, h2, h3⟩ := (C125_complete_partial c (cub_mono header readme v c rfl) rfl p dir archive h0 s hs t ht).1
  have h3 : isCubInstalled header readme v s.dir = true := h3
  unfold isCubInstalled at h3
  rw [Bool.and_eq_true] at h3
  refine ⟨⟨b, h1, h2⟩, h3.1, ?_⟩
  cases hr : s.dir readme with
  | none => simp [hr] at h3
  | some text => exact ⟨text, rfl, by simpa [hr] using h3.2⟩

/-- C125 for `trove_dir`. -/
theorem C125_trove_partial (readme : P) (sha : B → H) (expected : H) (unzip : B → Option (Files P B)) (p : Nat)
    (dir : Files P B) (archive : Option B) :
    let c : Cfg P B H := ⟨isTroveInstalled readme, sha, expected, unzip, true⟩
    (c.check dir = true → Complete c dir) → ∀ s t, Reach c (· = p) True (start c dir archive) s → s.pc p t = .returned →
      (∃ b, sha b = expected ∧ unzip b = some s.dir) ∧ (s.dir readme).isSome := by
  intro c h0 s t hs ht
  obtain ⟨b, h1, h2, h3⟩ := (C125_complete_partial c (trove_mono readme c rfl) rfl p dir archive h0 s hs t ht).1
  exact ⟨⟨b, h1, h2⟩, h3⟩

end Verif.Install
