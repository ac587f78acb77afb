/- The invariant of the installation by one process that does not crash, whichever way the directory is moved. -/
import Verif.Util.InstallLemmas

set_option autoImplicit false

namespace Verif.Install

variable {P B H : Type}

/-- What holds while a thread is at a point of the program. -/
def AtPC' (c : Cfg P B H) (p : Nat) (s : St P B) : PC P B → Prop
  | .archive | .download | .compare => (s.proc p).flag = false
  | .openZip | .remove | .extract => (s.proc p).flag = false ∧ ∃ b, s.archive = some b ∧ c.sha b = c.expected
  | .move x => (s.proc p).flag = false ∧ ∃ b, c.sha b = c.expected ∧ c.unzip b = some x
  | .final => (s.proc p).flag = false ∧ ∃ b, c.sha b = c.expected ∧ c.unzip b = some s.dir
  | .setFlag => (s.proc p).flag = false ∧ Complete c s.dir
  | .returned => (s.proc p).flag = true
  | _ => True

/-- The invariant for process `p`. -/
structure Inv' (c : Cfg P B H) (p : Nat) (s : St P B) : Prop where
  lock : ∀ t, Inside (s.pc p t) ↔ (s.proc p).lock = some t
  at_pc : ∀ t, AtPC' c p s (s.pc p t)
  flag : (s.proc p).flag = true → Complete c s.dir

theorem Inv'.other {c : Cfg P B H} {p : Nat} {s : St P B} (h : Inv' c p s) {t u : Nat} (ht : Inside (s.pc p t)) (hu : u ≠ t) :
    ¬ Inside (s.pc p u) := fun hi => hu (by have := (h.lock t).1 ht; rw [(h.lock u).1 hi] at this; exact Option.some.inj this)

/-- A step of the thread that holds the lock. -/
theorem Inv'.inside {c : Cfg P B H} {p : Nat} {s s' : St P B} (h : Inv' c p s) (t : Nat) (x : PC P B)
    (hin : Inside (s.pc p t)) (hpc : s'.pc p = Function.update (s.pc p) t x)
    (hl : (Inside x ∧ (s'.proc p).lock = (s.proc p).lock) ∨ (¬ Inside x ∧ (s'.proc p).lock = none))
    (hf : (s.proc p).flag = true → (s'.proc p).flag = true)
    (hx : AtPC' c p s' x) (hflag : (s'.proc p).flag = true → Complete c s'.dir) : Inv' c p s' where
  lock u := by
    rw [hpc]
    by_cases hu : u = t
    · subst hu
      rw [Function.update_self]
      rcases hl with ⟨h1, h2⟩ | ⟨h1, h2⟩
      · simp [h1, h2, (h.lock u).1 hin]
      · simp [h1, h2]
    · rw [Function.update_of_ne hu]
      refine ⟨fun hi => absurd hi (h.other hin hu), fun hi => ?_⟩
      rcases hl with ⟨_, h2⟩ | ⟨_, h2⟩
      · rw [h2, (h.lock t).1 hin] at hi
        exact absurd (Option.some.inj hi).symm hu
      · rw [h2] at hi
        cases hi
  at_pc u := by
    rw [hpc]
    by_cases hu : u = t
    · subst hu
      rw [Function.update_self]
      exact hx
    · rw [Function.update_of_ne hu]
      have hn := h.other hin hu
      have ha := h.at_pc u
      revert hn ha
      cases s.pc p u <;> simp [Inside, AtPC']
      exact hf
  flag := hflag

/-- A step of a thread that does not hold the lock and does not take it. -/
theorem Inv'.outside {c : Cfg P B H} {p : Nat} {s : St P B} (h : Inv' c p s) (t : Nat) (x : PC P B)
    (hin : ¬ Inside (s.pc p t)) (hx : ¬ Inside x) (ha : AtPC' c p s x) : Inv' c p (s.goto p t x) where
  lock u := by
    rw [goto_pc_self]
    by_cases hu : u = t
    · subst hu
      rw [Function.update_self]
      exact ⟨fun hi => absurd hi hx, fun hi => absurd ((h.lock u).2 hi) hin⟩
    · rw [Function.update_of_ne hu]
      exact h.lock u
  at_pc u := by
    rw [goto_pc_self]
    by_cases hu : u = t
    · subst hu
      rw [Function.update_self]
      cases x <;> exact ha
    · rw [Function.update_of_ne hu]
      have := h.at_pc u
      revert this
      cases s.pc p u <;> exact id
  flag := h.flag

theorem Inv'.start (c : Cfg P B H) (p : Nat) (dir : Files P B) (archive : Option B)
    (h : c.check dir = true → Complete c dir) : Inv' c p (start c dir archive) where
  lock t := by simp [Install.start, Inside]
  at_pc t := trivial
  flag := h

/-- Every step of a thread of `p` preserves the invariant. -/
theorem Inv'.step [DecidableEq P] [DecidableEq H] {c : Cfg P B H} {p t : Nat}
    {s s' : St P B} (h : Inv' c p s) (hs : Step c p t s s') : Inv' c p s' := by
  have ha := h.at_pc t
  have hno : ∀ {a : Bool} {Q : Prop}, a = false → a = true → Q := by rintro _ _ rfl h; cases h
  cases hs with
  | call h1 => exact h.outside t _ (by rw [h1]; exact id) id trivial
  | quick h1 h2 => exact h.outside t _ (by rw [h1]; exact id) id h2
  | slow h1 h2 => exact h.outside t _ (by rw [h1]; exact id) id trivial
  | acquire h1 h2 =>
    have hno : ∀ u, ¬ Inside (s.pc p u) := fun u hu => by rw [(h.lock u).1 hu] at h2; cases h2
    refine ⟨fun u => ?_, fun u => ?_, fun hf => h.flag (by simpa using hf)⟩
    · show Inside ((s.goto p t .check2).pc p u) ↔ (Function.update s.proc p _ p).lock = some u
      rw [goto_pc_self, Function.update_self]
      by_cases hu : u = t
      · subst hu
        simp [Inside]
      · rw [Function.update_of_ne hu]
        exact ⟨fun hi => absurd hi (hno u), fun hi => absurd (Option.some.inj hi).symm hu⟩
    · show AtPC' c p _ ((s.goto p t .check2).pc p u)
      rw [goto_pc_self]
      by_cases hu : u = t
      · subst hu
        rw [Function.update_self]
        trivial
      · rw [Function.update_of_ne hu]
        have hn := hno u
        have ha := h.at_pc u
        revert hn ha
        cases s.pc p u <;> simp [Inside, AtPC']
  | already h1 h2 =>
    exact h.inside t .returned (by rw [h1]; trivial) (goto_pc_self ..) (Or.inr ⟨id, by simp [St.unlock]⟩)
      (by simp [St.unlock, St.goto]) (by simpa [AtPC', St.unlock, St.goto] using h2) (fun _ => h.flag h2)
  | install h1 h2 =>
    exact h.inside t .archive (by rw [h1]; trivial) (goto_pc_self ..) (Or.inl ⟨trivial, rfl⟩) id h2 h.flag
  | reuse b h1 h2 h3 =>
    rw [h1] at ha
    exact h.inside t .openZip (by rw [h1]; trivial) (goto_pc_self ..) (Or.inl ⟨trivial, rfl⟩) id ⟨ha, b, h2, h3⟩ h.flag
  | fetch h1 h2 =>
    rw [h1] at ha
    exact h.inside t .download (by rw [h1]; trivial) (goto_pc_self ..) (Or.inl ⟨trivial, rfl⟩) id ha h.flag
  | write b h1 =>
    rw [h1] at ha
    exact h.inside t .download (by rw [h1]; trivial) (by rw [← h1]; exact (Function.update_eq_self ..).symm)
      (Or.inl ⟨trivial, rfl⟩) id ha h.flag
  | written h1 =>
    rw [h1] at ha
    exact h.inside t .compare (by rw [h1]; trivial) (goto_pc_self ..) (Or.inl ⟨trivial, rfl⟩) id ha h.flag
  | match' b h1 h2 h3 =>
    rw [h1] at ha
    exact h.inside t .openZip (by rw [h1]; trivial) (goto_pc_self ..) (Or.inl ⟨trivial, rfl⟩) id ⟨ha, b, h2, h3⟩ h.flag
  | opened b x h1 h2 h3 =>
    rw [h1] at ha
    exact h.inside t .remove (by rw [h1]; trivial) (goto_pc_self ..) (Or.inl ⟨trivial, rfl⟩) id ha h.flag
  | unlink f h1 =>
    rw [h1] at ha
    exact h.inside t .remove (by rw [h1]; trivial) (by rw [← h1]; exact (Function.update_eq_self ..).symm)
      (Or.inl ⟨trivial, rfl⟩) id ha (hno ha.1)
  | removed h1 h2 =>
    rw [h1] at ha
    exact h.inside t .extract (by rw [h1]; trivial) (goto_pc_self ..) (Or.inl ⟨trivial, rfl⟩) id ha h.flag
  | extracted b x h1 h2 h3 =>
    rw [h1] at ha
    obtain ⟨b', hb, hsha⟩ := ha.2
    have : b' = b := Option.some.inj (hb.symm.trans h2)
    subst this
    exact h.inside t (.move x) (by rw [h1]; trivial) (goto_pc_self ..) (Or.inl ⟨trivial, rfl⟩) id ⟨ha.1, b', hsha, h3⟩ h.flag
  | rename x h1 h2 =>
    rw [h1] at ha
    exact h.inside t .final (by rw [h1]; trivial) (goto_pc_self ..) (Or.inl ⟨trivial, rfl⟩) id ha (hno ha.1)
  | copy x f h1 h2 =>
    rw [h1] at ha
    exact h.inside t (.move x) (by rw [h1]; trivial) (by rw [← h1]; exact (Function.update_eq_self ..).symm)
      (Or.inl ⟨trivial, rfl⟩) id ha (hno ha.1)
  | copied x h1 h2 h3 =>
    rw [h1] at ha
    refine h.inside t .final (by rw [h1]; trivial) (goto_pc_self ..) (Or.inl ⟨trivial, rfl⟩) id ⟨ha.1, ?_⟩ (hno ha.1)
    have : (s.goto p t .final).dir = x := funext h3
    rw [this]
    exact ha.2
  | good h1 h2 =>
    rw [h1] at ha
    obtain ⟨b, hb, hz⟩ := ha.2
    exact h.inside t .setFlag (by rw [h1]; trivial) (goto_pc_self ..) (Or.inl ⟨trivial, rfl⟩) id ⟨ha.1, b, hb, hz, h2⟩ h.flag
  | bad h1 h2 =>
    exact h.inside t .idle (by rw [h1]; trivial) (goto_pc_self ..) (Or.inr ⟨id, by simp [St.unlock]⟩)
      (by simp [St.unlock, St.goto]) trivial (fun hf => h.flag (by simpa [St.unlock, St.goto] using hf))
  | set h1 =>
    rw [h1] at ha
    exact h.inside t .returned (by rw [h1]; trivial) (goto_pc_self ..) (Or.inr ⟨id, by simp⟩) (by simp) (by simp [AtPC'])
      (fun _ => ha.2)
  | raise h1 =>
    exact h.inside t .idle (by rcases h1 with h1 | h1 | h1 | h1 | ⟨x, h1⟩ <;> rw [h1] <;> trivial) (goto_pc_self ..)
      (Or.inr ⟨id, by simp [St.unlock]⟩) (by simp [St.unlock, St.goto]) trivial
      (fun hf => h.flag (by simpa [St.unlock, St.goto] using hf))
  | leave h1 => exact h.outside t _ (by rw [h1]; exact id) id trivial

/-- Once the flag is set, a step of the process leaves the directory and the flag alone. -/
theorem Inv'.stable [DecidableEq P] [DecidableEq H] {c : Cfg P B H} {p t : Nat} {s s' : St P B} (h : Inv' c p s)
    (hs : Step c p t s s') (hf : (s.proc p).flag = true) : s'.dir = s.dir ∧ (s'.proc p).flag = true := by
  have ha := h.at_pc t
  have hno : ∀ {Q : Prop}, (s.proc p).flag = false → Q := fun h => by rw [hf] at h; cases h
  cases hs with
  | unlink f h1 => rw [h1] at ha; exact hno ha.1
  | rename x h1 h2 => rw [h1] at ha; exact hno ha.1
  | copy x f h1 h2 => rw [h1] at ha; exact hno ha.1
  | acquire h1 h2 => exact ⟨rfl, by simpa using hf⟩
  | already h1 h2 => exact ⟨rfl, by simpa [St.unlock, St.goto] using hf⟩
  | bad h1 h2 => exact ⟨rfl, by simpa [St.unlock, St.goto] using hf⟩
  | raise h1 => exact ⟨rfl, by simpa [St.unlock, St.goto] using hf⟩
  | set h1 => exact ⟨rfl, by simp⟩
  | _ => exact ⟨rfl, hf⟩

/-- The invariant of crash runs implies the other. -/
theorem Inv.toInv' {c : Cfg P B H} {p : Nat} {s : St P B} (h : Inv c p s) : Inv' c p s where
  lock := h.lock
  at_pc t := by
    have ha := h.at_pc t
    revert ha
    cases s.pc p t with
    | archive => exact fun ha => ha.1
    | download => exact fun ha => ha.1
    | compare => exact fun ha => ha.1
    | openZip => exact fun ha => ⟨ha.1, ha.2.2⟩
    | remove => exact fun ha => ⟨ha.1, ha.2.2⟩
    | extract => exact fun ha => ⟨ha.1, ha.2.2⟩
    | move x => exact fun ha => ⟨ha.1, ha.2.2⟩
    | final => exact id
    | setFlag => exact fun ha => ⟨ha.1, h.complete ha.2⟩
    | returned => exact fun ha => ha
    | _ => exact fun _ => trivial
  flag hf := h.complete (h.flag hf)

end Verif.Install
