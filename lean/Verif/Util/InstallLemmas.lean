/- The invariant of the installation by one process, and its preservation. -/
import Verif.Util.InstallSpec
import Mathlib.Tactic.Common

set_option autoImplicit false

namespace Verif.Install

variable {P B H : Type}

/-- What holds while a thread is at a point of the program. -/
def AtPC (c : Cfg P B H) (p : Nat) (s : St P B) : PC P B → Prop
  | .archive | .download | .compare => (s.proc p).flag = false ∧ c.check s.dir = false
  | .openZip | .remove | .extract => (s.proc p).flag = false ∧ c.check s.dir = false ∧
      ∃ b, s.archive = some b ∧ c.sha b = c.expected
  | .move x => (s.proc p).flag = false ∧ c.check s.dir = false ∧ ∃ b, c.sha b = c.expected ∧ c.unzip b = some x
  | .final => (s.proc p).flag = false ∧ ∃ b, c.sha b = c.expected ∧ c.unzip b = some s.dir
  | .setFlag => (s.proc p).flag = false ∧ c.check s.dir = true
  | .returned => (s.proc p).flag = true
  | _ => True

/-- The invariant for process `p`. -/
structure Inv (c : Cfg P B H) (p : Nat) (s : St P B) : Prop where
  lock : ∀ t, Inside (s.pc p t) ↔ (s.proc p).lock = some t
  at_pc : ∀ t, AtPC c p s (s.pc p t)
  complete : c.check s.dir = true → Complete c s.dir
  flag : (s.proc p).flag = true → c.check s.dir = true
  noflag : (s.proc p).flag = false → c.check s.dir = false ∨ ∃ t, s.pc p t = .final ∨ s.pc p t = .setFlag

theorem goto_pc_self (s : St P B) (p t : Nat) (x : PC P B) : (s.goto p t x).pc p = Function.update (s.pc p) t x := by
  simp [St.goto]

/-- Another thread is not inside while `t` is. -/
theorem Inv.other {c : Cfg P B H} {p : Nat} {s : St P B} (h : Inv c p s) {t u : Nat} (ht : Inside (s.pc p t)) (hu : u ≠ t) :
    ¬ Inside (s.pc p u) := fun hi => hu (by have := (h.lock t).1 ht; rw [(h.lock u).1 hi] at this; exact Option.some.inj this)

/-- A step of the thread that holds the lock. -/
theorem Inv.inside {c : Cfg P B H} {p : Nat} {s s' : St P B} (h : Inv c p s) (t : Nat) (x : PC P B)
    (hin : Inside (s.pc p t)) (hpc : s'.pc p = Function.update (s.pc p) t x)
    (hl : (Inside x ∧ (s'.proc p).lock = (s.proc p).lock) ∨ (¬ Inside x ∧ (s'.proc p).lock = none))
    (hf : (s.proc p).flag = true → (s'.proc p).flag = true)
    (hx : AtPC c p s' x) (hc : c.check s'.dir = true → Complete c s'.dir)
    (hflag : (s'.proc p).flag = true → c.check s'.dir = true)
    (hno : (s'.proc p).flag = false → c.check s'.dir = false ∨ x = .final ∨ x = .setFlag) : Inv c p s' where
  lock u := by
    rw [hpc]
    by_cases hu : u = t
    · subst hu
      rw [Function.update_self]
      rcases hl with ⟨h1, h2⟩ | ⟨h1, h2⟩
      · simp [h1, h2, (h.lock u).1 hin]
      · simp [h1, h2]
    · rw [Function.update_of_ne hu]
      refine ⟨fun hi => absurd hi (h.other hin hu), fun hi => ?_⟩
      rcases hl with ⟨_, h2⟩ | ⟨_, h2⟩
      · rw [h2, (h.lock t).1 hin] at hi
        exact absurd (Option.some.inj hi).symm hu
      · rw [h2] at hi
        cases hi
  at_pc u := by
    rw [hpc]
    by_cases hu : u = t
    · subst hu
      rw [Function.update_self]
      exact hx
    · rw [Function.update_of_ne hu]
      have hn := h.other hin hu
      have ha := h.at_pc u
      revert hn ha
      cases s.pc p u <;> simp [Inside, AtPC]
      exact hf
  complete := hc
  flag := hflag
  noflag hf' := by
    rcases hno hf' with h1 | h1
    · exact Or.inl h1
    · exact Or.inr ⟨t, by rw [hpc, Function.update_self]; exact h1⟩

/-- A step of a thread that does not hold the lock and does not take it. -/
theorem Inv.outside {c : Cfg P B H} {p : Nat} {s : St P B} (h : Inv c p s) (t : Nat) (x : PC P B)
    (hin : ¬ Inside (s.pc p t)) (hx : ¬ Inside x) (ha : AtPC c p s x) : Inv c p (s.goto p t x) where
  lock u := by
    rw [goto_pc_self]
    by_cases hu : u = t
    · subst hu
      rw [Function.update_self]
      exact ⟨fun hi => absurd hi hx, fun hi => absurd ((h.lock u).2 hi) hin⟩
    · rw [Function.update_of_ne hu]
      exact h.lock u
  at_pc u := by
    rw [goto_pc_self]
    by_cases hu : u = t
    · subst hu
      rw [Function.update_self]
      cases x <;> exact ha
    · rw [Function.update_of_ne hu]
      have := h.at_pc u
      revert this
      cases s.pc p u <;> exact id
  complete := h.complete
  flag := h.flag
  noflag hf := by
    rcases h.noflag hf with h1 | ⟨u, h1⟩
    · exact Or.inl h1
    · refine Or.inr ⟨u, ?_⟩
      have : u ≠ t := by
        rintro rfl
        apply hin
        rcases h1 with h1 | h1 <;> rw [h1] <;> trivial
      rw [goto_pc_self, Function.update_of_ne this]
      exact h1

theorem Inv.start (c : Cfg P B H) (p : Nat) (dir : Files P B) (archive : Option B)
    (h : c.check dir = true → Complete c dir) : Inv c p (start c dir archive) where
  lock t := by simp [Install.start, Inside]
  at_pc t := trivial
  complete := h
  flag := id
  noflag := Or.inl

theorem Inv.restart {c : Cfg P B H} {p : Nat} {s : St P B} (h : Inv c p s) : Inv c p (s.restart c p) where
  lock t := by simp [St.restart, Inside]
  at_pc t := by simp [St.restart, AtPC]
  complete := h.complete
  flag := by simp [St.restart]
  noflag hf := Or.inl (by simpa [St.restart] using hf)

/-- Every step of a thread of `p` preserves the invariant. -/
theorem Inv.step [DecidableEq P] [DecidableEq H] {c : Cfg P B H} (hm : CheckMono c) (hr : c.rename = true) {p t : Nat}
    {s s' : St P B} (h : Inv c p s) (hs : Step c p t s s') : Inv c p s' := by
  have ha := h.at_pc t
  cases hs with
  | call h1 => exact h.outside t _ (by rw [h1]; exact id) id trivial
  | quick h1 h2 => exact h.outside t _ (by rw [h1]; exact id) id h2
  | slow h1 h2 => exact h.outside t _ (by rw [h1]; exact id) id trivial
  | acquire h1 h2 =>
    have hno : ∀ u, ¬ Inside (s.pc p u) := fun u hu => by rw [(h.lock u).1 hu] at h2; cases h2
    refine ⟨fun u => ?_, fun u => ?_, h.complete, fun hf => h.flag (by simpa using hf), fun hf => ?_⟩
    · show Inside ((s.goto p t .check2).pc p u) ↔ (Function.update s.proc p _ p).lock = some u
      rw [goto_pc_self, Function.update_self]
      by_cases hu : u = t
      · subst hu
        simp [Inside]
      · rw [Function.update_of_ne hu]
        exact ⟨fun hi => absurd hi (hno u), fun hi => absurd (Option.some.inj hi).symm hu⟩
    · show AtPC c p _ ((s.goto p t .check2).pc p u)
      rw [goto_pc_self]
      by_cases hu : u = t
      · subst hu
        rw [Function.update_self]
        trivial
      · rw [Function.update_of_ne hu]
        have hn := hno u
        have ha := h.at_pc u
        revert hn ha
        cases s.pc p u <;> simp [Inside, AtPC]
    · rcases h.noflag (by simpa using hf) with h3 | ⟨u, h3⟩
      · exact Or.inl h3
      · exfalso
        apply hno u
        rcases h3 with h3 | h3 <;> rw [h3] <;> trivial
  | already h1 h2 =>
    refine h.inside t .returned (by rw [h1]; trivial) (goto_pc_self ..) (Or.inr ⟨id, by simp [St.unlock]⟩)
      (by simp [St.unlock, St.goto]) (by simpa [AtPC, St.unlock, St.goto] using h2) h.complete (fun _ => h.flag h2) ?_
    intro hf
    simp [St.unlock, St.goto, h2] at hf
  | install h1 h2 =>
    have hc : c.check s.dir = false := by
      rcases h.noflag h2 with h3 | ⟨u, h3⟩
      · exact h3
      · exfalso
        have : u ≠ t := by
          rintro rfl
          rw [h1] at h3
          rcases h3 with h3 | h3 <;> cases h3
        apply h.other (by rw [h1]; trivial) this
        rcases h3 with h3 | h3 <;> rw [h3] <;> trivial
    exact h.inside t .archive (by rw [h1]; trivial) (goto_pc_self ..) (Or.inl ⟨trivial, rfl⟩) id ⟨h2, hc⟩ h.complete h.flag
      fun _ => Or.inl hc
  | reuse b h1 h2 h3 =>
    rw [h1] at ha
    exact h.inside t .openZip (by rw [h1]; trivial) (goto_pc_self ..) (Or.inl ⟨trivial, rfl⟩) id ⟨ha.1, ha.2, b, h2, h3⟩ h.complete
      h.flag fun _ => Or.inl ha.2
  | fetch h1 h2 =>
    rw [h1] at ha
    exact h.inside t .download (by rw [h1]; trivial) (goto_pc_self ..) (Or.inl ⟨trivial, rfl⟩) id ha h.complete h.flag
      fun _ => Or.inl ha.2
  | write b h1 =>
    rw [h1] at ha
    exact h.inside t .download (by rw [h1]; trivial) (by rw [← h1]; exact (Function.update_eq_self ..).symm)
      (Or.inl ⟨trivial, rfl⟩) id ha h.complete h.flag fun _ => Or.inl ha.2
  | written h1 =>
    rw [h1] at ha
    exact h.inside t .compare (by rw [h1]; trivial) (goto_pc_self ..) (Or.inl ⟨trivial, rfl⟩) id ha h.complete h.flag
      fun _ => Or.inl ha.2
  | match' b h1 h2 h3 =>
    rw [h1] at ha
    exact h.inside t .openZip (by rw [h1]; trivial) (goto_pc_self ..) (Or.inl ⟨trivial, rfl⟩) id ⟨ha.1, ha.2, b, h2, h3⟩ h.complete
      h.flag fun _ => Or.inl ha.2
  | opened b x h1 h2 h3 =>
    rw [h1] at ha
    exact h.inside t .remove (by rw [h1]; trivial) (goto_pc_self ..) (Or.inl ⟨trivial, rfl⟩) id ha h.complete h.flag
      fun _ => Or.inl ha.2.1
  | unlink f h1 =>
    rw [h1] at ha
    have hc : c.check (Function.update s.dir f none) = false := by
      by_contra hne
      have := hm s.dir f (by simpa using hne)
      rw [ha.2.1] at this
      cases this
    refine h.inside t .remove (by rw [h1]; trivial) (by rw [← h1]; exact (Function.update_eq_self ..).symm)
      (Or.inl ⟨trivial, rfl⟩) id ⟨ha.1, hc, ha.2.2⟩ (fun hc' => ?_) (fun hf => ?_) fun _ => Or.inl hc
    · have := hc.symm.trans hc'
      cases this
    · have := ha.1.symm.trans hf
      cases this
  | removed h1 h2 =>
    rw [h1] at ha
    exact h.inside t .extract (by rw [h1]; trivial) (goto_pc_self ..) (Or.inl ⟨trivial, rfl⟩) id ha h.complete h.flag
      fun _ => Or.inl ha.2.1
  | extracted b x h1 h2 h3 =>
    rw [h1] at ha
    obtain ⟨b', hb, hsha⟩ := ha.2.2
    have : b' = b := Option.some.inj (hb.symm.trans h2)
    subst this
    exact h.inside t (.move x) (by rw [h1]; trivial) (goto_pc_self ..) (Or.inl ⟨trivial, rfl⟩) id ⟨ha.1, ha.2.1, b', hsha, h3⟩
      h.complete h.flag fun _ => Or.inl ha.2.1
  | rename x h1 h2 =>
    rw [h1] at ha
    obtain ⟨b, hsha, hz⟩ := ha.2.2
    refine h.inside t .final (by rw [h1]; trivial) (goto_pc_self ..) (Or.inl ⟨trivial, rfl⟩) id ⟨ha.1, b, hsha, hz⟩
      (fun hc => ⟨b, hsha, hz, hc⟩)
      (fun hf => ?_) fun _ => Or.inr (Or.inl rfl)
    have := ha.1.symm.trans hf
    cases this
  | copy x f h1 h2 => rw [hr] at h2; cases h2
  | copied x h1 h2 h3 => rw [hr] at h2; cases h2
  | good h1 h2 =>
    rw [h1] at ha
    exact h.inside t .setFlag (by rw [h1]; trivial) (goto_pc_self ..) (Or.inl ⟨trivial, rfl⟩) id ⟨ha.1, h2⟩ h.complete h.flag
      fun _ => Or.inr (Or.inr rfl)
  | bad h1 h2 =>
    exact h.inside t .idle (by rw [h1]; trivial) (goto_pc_self ..) (Or.inr ⟨id, by simp [St.unlock]⟩)
      (by simp [St.unlock, St.goto]) trivial h.complete (fun hf => h.flag (by simpa [St.unlock, St.goto] using hf))
      fun _ => Or.inl h2
  | set h1 =>
    rw [h1] at ha
    refine h.inside t .returned (by rw [h1]; trivial) (goto_pc_self ..) (Or.inr ⟨id, by simp⟩) (by simp) (by simp [AtPC])
      h.complete (fun _ => ha.2) ?_
    intro hf
    simp at hf
  | raise h1 =>
    have hc : c.check s.dir = false := by
      rcases h1 with h1 | h1 | h1 | h1 | ⟨x, h1⟩ <;> rw [h1] at ha
      · exact ha.2
      · exact ha.2
      · exact ha.2.1
      · exact ha.2.1
      · exact ha.2.1
    exact h.inside t .idle (by rcases h1 with h1 | h1 | h1 | h1 | ⟨x, h1⟩ <;> rw [h1] <;> trivial) (goto_pc_self ..)
      (Or.inr ⟨id, by simp [St.unlock]⟩) (by simp [St.unlock, St.goto]) trivial h.complete
      (fun hf => h.flag (by simpa [St.unlock, St.goto] using hf)) fun _ => Or.inl hc
  | leave h1 => exact h.outside t _ (by rw [h1]; exact id) id trivial

/-- Whatever happens preserves the invariant. -/
theorem Inv.next [DecidableEq P] [DecidableEq H] {c : Cfg P B H} (hm : CheckMono c) (hr : c.rename = true) {p : Nat}
    {s s' : St P B} (h : Inv c p s) {crashes : Prop} (hs : Next c (· = p) crashes s s') : Inv c p s' := by
  match hs with
  | .step q t _ _ hq hs =>
    have hq : q = p := hq
    rw [hq] at hs
    exact h.step hm hr hs
  | .crash q _ hq _ =>
    have hq : q = p := hq
    rw [hq]
    exact h.restart

/-- Every reachable state satisfies the invariant. -/
theorem Inv.reach [DecidableEq P] [DecidableEq H] {c : Cfg P B H} (hm : CheckMono c) (hr : c.rename = true) {p : Nat}
    {s s' : St P B} (h : Inv c p s) {crashes : Prop} (hs : Reach c (· = p) crashes s s') : Inv c p s' := by
  induction hs with
  | refl => exact h
  | tail _ hn ih => exact ih.next hm hr hn

end Verif.Install
