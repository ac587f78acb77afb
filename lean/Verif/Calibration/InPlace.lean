/-
The statement `time_bin_indices -= time_bin_indices.min()` changes the caller's array
(corrupt_vis.py:70, correct_vis.py:80, residual_vis.py:74, compute_and_corrupt_vis.py:88,
phase_only.py:39, 85, 125). The kernels are compiled with `nogil=True`, so several tasks that were handed the
same block run concurrently on it. This file models the tasks as a transition system on a shared memory.

Assumptions: blocks of a numpy-backed dask array are views of the user's array, and tasks that differ only in
their channel or correlation block get the same view (`align_arrays=False`, block index of "row" only).
Simplification: computing the minimum is one step, and so is the update of one entry; real executions have
more interleavings.
-/
import Verif.Calibration.Lemmas

set_option autoImplicit false

namespace Verif.Calibration

/-- Where a task is in the kernel (calibration/utils/corrupt_vis.py:70, where `time_bin_indices` is changed in place). -/
inductive PC
  /-- before `time_bin_indices.min()` -/
  | start
  /-- inside `-=`: the minimum is `m`, entries below `t` are done -/
  | shift (m : Int) (t : Nat)
  /-- in the loop over time bins: bins below `t` are done, `lo` are the first rows read -/
  | loop (t : Nat) (lo : Nat → Int)
  /-- `min()` of an empty array raised -/
  | failed

/-- The part `[off, off + n)` of the memory a task was handed as `time_bin_indices`
(calibration/utils/corrupt_vis.py:70, where `time_bin_indices` is changed in place). -/
structure Region where
  off : Nat
  n : Nat
  deriving DecidableEq

/-- `time_bin_indices.min()` for a non-empty block (corrupt_vis.py:70). -/
def regMin (mem : Nat → Int) (r : Region) : Int :=
  forRange (r.n - 1) (mem r.off) fun i a => min a (mem (r.off + (i + 1)))

/-- One step of a task (corrupt_vis.py:70-86 and the corresponding lines of the other kernels);
`none` when it has finished or failed. -/
def taskStep (r : Region) (mem : Nat → Int) (pc : PC) : Option ((Nat → Int) × PC) :=
  match pc with
  | .start => if r.n = 0 then some (mem, .failed) else some (mem, .shift (regMin mem r) 0)
  | .shift m t =>
    if t < r.n then some (Function.update mem (r.off + t) (mem (r.off + t) - m), .shift m (t + 1))
    else some (mem, .loop 0 fun _ => 0)
  | .loop t lo => if t < r.n then some (mem, .loop (t + 1) (Function.update lo t (mem (r.off + t)))) else none
  | .failed => none

/-- State of a computation: the memory and the position of every task
(calibration/utils/corrupt_vis.py:70, where `time_bin_indices` is changed in place). -/
structure Sys where
  mem : Nat → Int
  pc : Nat → PC

/-- Some task `i < ntasks` makes a step; task `i` works on the block `reg i`
(calibration/utils/corrupt_vis.py:70, where `time_bin_indices` is changed in place). -/
def SysStep (ntasks : Nat) (reg : Nat → Region) (s s' : Sys) : Prop :=
  ∃ i < ntasks, ∃ mem pc, taskStep (reg i) s.mem (s.pc i) = some (mem, pc) ∧
    s' = { mem := mem, pc := Function.update s.pc i pc }

/-- States reachable when all tasks start on the user's array `g`
(calibration/utils/corrupt_vis.py:70, where `time_bin_indices` is changed in place). -/
inductive SysReach (ntasks : Nat) (reg : Nat → Region) (g : Nat → Int) : Sys → Prop
  | init : SysReach ntasks reg g { mem := g, pc := fun _ => .start }
  | step {s s'} : SysReach ntasks reg g s → SysStep ntasks reg s s' → SysReach ntasks reg g s'

end Verif.Calibration
