/- C125: a run that installs, and two that leave users with an incomplete directory. -/
import Verif.Util.InstallProps

set_option autoImplicit false

namespace Verif.Install

/-- Three files: a header, the readme and another header that the first one includes. Archive 7 is the published one. -/
def demo (rename : Bool) : Cfg (Fin 3) Nat Nat :=
  ⟨isCubInstalled 0 1 (· == 5), fun b => b % 100, 7, fun b => if b = 7 then some fun _ => some 5 else none, rename⟩

/-- Nothing is installed and nothing downloaded. -/
def demoStart (rename : Bool) : St (Fin 3) Nat := start (demo rename) (fun _ => none) none

variable {P B H : Type} [DecidableEq P] [DecidableEq H]

theorem Reach.go {c : Cfg P B H} {ps : Nat → Prop} {cr : Prop} {s s1 s2 : St P B} (h : Reach c ps cr s s1) (p t : Nat) (hp : ps p)
    (hs : Step c p t s1 s2) : Reach c ps cr s s2 := h.tail (.step p t _ _ hp hs)

theorem Reach.kill {c : Cfg P B H} {ps : Nat → Prop} {s s1 : St P B} (h : Reach c ps True s s1) (p : Nat) (hp : ps p) :
    Reach c ps True s (s1.restart c p) := h.tail (.crash p _ hp trivial)

/-- A thread of process `p` gets as far as moving the files. -/
theorem demo_move (r : Bool) (ps : Nat → Prop) (cr : Prop) (p : Nat) (hp : ps p) (s0 s : St (Fin 3) Nat)
    (h : Reach (demo r) ps cr s0 s) (hpc : s.pc p 0 = .idle) (hf : (s.proc p).flag = false) (hl : (s.proc p).lock = none)
    (hd : s.dir = fun _ => none) (ha : s.archive = none) :
    ∃ s', Reach (demo r) ps cr s0 s' ∧ s'.pc p 0 = .move (fun _ => some 5) ∧ (s'.dir = fun _ => none) ∧
      s'.archive = some 7 ∧ ∀ q, q ≠ p → s'.proc q = s.proc q ∧ s'.pc q = s.pc q := by
  refine ⟨_, ((((((((((((h.go p 0 hp (.call _ hpc)).go p 0 hp (.slow _ ?_ ?_)).go p 0 hp (.acquire _ ?_ ?_)).go p 0 hp
    (.install _ ?_ ?_)).go p 0 hp (.fetch _ ?_ ?_)).go p 0 hp (.write _ 3 ?_)).go p 0 hp (.write _ 7 ?_)).go p 0 hp
    (.written _ ?_)).go p 0 hp (.match' _ 7 ?_ ?_ ?_)).go p 0 hp (.opened _ 7 (fun _ => some 5) ?_ ?_ ?_)).go p 0 hp
    (.removed _ ?_ ?_)).go p 0 hp (.extracted _ 7 (fun _ => some 5) ?_ ?_ ?_)), ?_, ?_, ?_, ?_⟩
  all_goals simp [St.goto, hf, hl, hd, ha, demo]
  intro q hq
  simp [hq]

/-- A call installs. -/
example : ∃ s, Reach (demo true) (· = 0) True (demoStart true) s ∧ s.pc 0 0 = .returned ∧ s.dir 2 = some 5 := by
  obtain ⟨s, h, hpc, hd, -, -⟩ := demo_move true (· = 0) True 0 rfl (demoStart true) (demoStart true) .refl rfl rfl rfl rfl rfl
  refine ⟨_, ((h.go 0 0 rfl (.rename _ _ hpc rfl)).go 0 0 rfl (.good _ ?_ ?_)).go 0 0 rfl (.set _ ?_), ?_, ?_⟩
  all_goals simp [St.goto, demo, isCubInstalled]

example : (demo true).check (fun _ => none) = true → Complete (demo true) (fun _ => none) := by
  simp [demo, isCubInstalled]

/-- C125 fails if the move is a copy, as it is when the temporary directory is on another file system: a process killed
after the header and the readme were copied, and started again, takes the directory for installed, and returns it
without the other files. -/
theorem C125_crash_violated : ∃ s, Reach (demo false) (· = 0) True (demoStart false) s ∧ s.pc 0 0 = .returned ∧
    ¬ Complete (demo false) s.dir ∧ s.dir 2 = none := by
  obtain ⟨s, h, hpc, hd, -, -⟩ := demo_move false (· = 0) True 0 rfl (demoStart false) (demoStart false) .refl rfl rfl rfl rfl rfl
  have h1 := h.go 0 0 rfl (.copy _ _ 0 hpc rfl)
  have h2 := h1.go 0 0 rfl (.copy _ _ 1 hpc rfl)
  have h3 := h2.kill 0 rfl
  refine ⟨_, (h3.go 0 0 rfl (.call _ ?_)).go 0 0 rfl (.quick _ ?_ ?_), ?_, ?_, ?_⟩
  · simp [St.restart]
  · simp [St.goto]
  · simp [St.goto, St.restart, demo, isCubInstalled, Function.update]
  · simp [St.goto]
  · rintro ⟨b, -, hz, -⟩
    simp only [demo] at hz
    split at hz
    · have := congrFun (Option.some.inj hz) 2
      simp [St.goto, St.restart, hd, Function.update] at this
    · cases hz
  · simp [St.goto, St.restart, hd, Function.update]

/-- C125 fails for two processes: the lock is not shared. Both were started before anything was installed. While a thread of
the first has the directory, the second removes the header from it. -/
theorem C125_processes_violated : ∃ s, Reach (demo true) (fun _ => True) False (demoStart true) s ∧ s.pc 0 0 = .returned ∧
    s.dir 0 = none := by
  obtain ⟨s, h, hpc, hd, ha, ho⟩ := demo_move true (fun _ => True) False 0 trivial (demoStart true) (demoStart true) .refl rfl rfl rfl
    rfl rfl
  have h1 := h.go 0 0 trivial (.rename _ _ hpc rfl)
  have h2 := h1.go 0 0 trivial (.good _ (by simp [St.goto]) (by simp [demo, isCubInstalled]))
  have h3 := h2.go 0 0 trivial (.set _ (by simp [St.goto]))
  obtain ⟨o1, o2⟩ := ho 1 (by decide)
  refine ⟨_, ((((((h3.go 1 0 trivial (.call _ ?_)).go 1 0 trivial (.slow _ ?_ ?_)).go 1 0 trivial (.acquire _ ?_ ?_)).go 1 0 trivial
    (.install _ ?_ ?_)).go 1 0 trivial (.reuse _ 7 ?_ ?_ ?_)).go 1 0 trivial (.opened _ 7 (fun _ => some 5) ?_ ?_ ?_)).go 1 0 trivial
    (.unlink _ 0 ?_), ?_, ?_⟩
  all_goals simp [St.goto, o1, o2, ha, demo, demoStart, start, isCubInstalled]

end Verif.Install
