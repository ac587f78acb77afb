/-
Model of register_assign_cycles (africanus/util/jinja2.py:7-62) and of the warp transpose generated from it
(africanus/rime/cuda/macros.j2:94-164).
-/
import Verif.Util.Shapes

set_option autoImplicit false

namespace Verif.Util.Cycles

open Verif.Util

/-- The source of register `n` (jinja2.py:33); Python's `%` with a positive modulus. -/
def srcOf (N : Nat) (case : Int) (n : Nat) : Nat := (((N : Int) - case + n) % (N : Int)).toNat

/-- `src` (jinja2.py:33). -/
def srcs (N : Nat) (case : Int) : List Nat := (List.range N).map (srcOf N case)

/-- The dictionary before the second loop (jinja2.py:35). -/
def deps0 (N : Nat) (case : Int) : List (Nat × Nat) :=
  ((List.range N).zip (srcs N case)).filter fun p => p.1 ≠ p.2

/-- One step of the second loop (jinja2.py:37-40); `index` raises `ValueError` if there is no such element. -/
def depsStep (N : Nat) (case : Int) (di : Nat) (deps : List (Nat × Nat)) : Except PyErr (List (Nat × Nat)) :=
  if di ∈ srcs N case then
    let si := (srcs N case).idxOf di
    if si > di then .ok (dictSet deps si di) else .ok deps
  else .error .valueError

/-- Following a cycle (jinja2.py:48-58): `v` is the key to be removed next. The number of turns is bounded by the first
argument, which is larger than the number of keys, so that the bound is not met. -/
def follow : Nat → List (Nat × Nat) → Nat → Nat → List (Nat × Nat) → Except PyErr (List (Nat × Nat) × List (Nat × Nat))
  | 0, _, _, _, _ => .error .runtimeError
  | n + 1, deps, first, v, cycle => match deps.lookup v with
    | none => if v = first then .ok (cycle, deps) else .error .assertionError
    | some v' => follow n (deps.filter fun p => p.1 ≠ v) first v' (cycle ++ [(v, v')])

/-- The outer loop (jinja2.py:44-60); `popitem` removes the last item. -/
def cycleLoop : Nat → List (Nat × Nat) → List (List (Nat × Nat)) → Except PyErr (List (List (Nat × Nat)))
  | 0, _, _ => .error .runtimeError
  | n + 1, deps, cycles => match deps.getLast? with
    | none => .ok cycles
    | some (k, v) => match follow (deps.length + 1) deps.dropLast k v [(k, v)] with
      | .error e => .error e
      | .ok (cycle, deps') => cycleLoop n deps' (cycles ++ [cycle])

/-- `register_assign_cycles` (jinja2.py:7-62). -/
def registerAssignCycles (N : Nat) (case : Int) : Except PyErr (List (List (Nat × Nat))) :=
  match forRangeM N (deps0 N case) (depsStep N case) with
  | .error e => .error e
  | .ok deps => cycleLoop (deps.length + 1) deps []

/-! ### The generated code -/

/-- The assignments of one cycle (macros.j2:142-147), for a thread that takes part: the temporary variable replaces the
register the cycle starts with. -/
def execPairs {α : Type} (tmp : α) (start : Nat) : List (Nat × Nat) → (Nat → α) → Nat → α
  | [], r => r
  | (d, s) :: l, r => execPairs tmp start l (Function.update r d (if s = start then tmp else r s))

/-- One cycle (macros.j2:139-148). -/
def execCycle {α : Type} (c : List (Nat × Nat)) (r : Nat → α) : Nat → α :=
  match c with
  | [] => r
  | (k, _) :: _ => execPairs (r k) k c r

/-- All cycles of a case (macros.j2:138-149). -/
def execCycles {α : Type} (cs : List (List (Nat × Nat))) (r : Nat → α) : Nat → α :=
  cs.foldl (fun r c => execCycle c r) r

/-- `__shfl_sync` of a value among `n` adjacent threads (macros.j2:128, 131, 155, 158): the value of the thread at the address. -/
def shfl {α : Type} (n : Nat) (x : Nat → α) (addr : Nat → Nat) (lane : Nat) : α := x (addr lane % n)

/-- A horizontal rotation (macros.j2:124-133, 151-160): register `case` is fetched from the address, and except after the last
register the addresses are fetched from the thread `next`. Registers are indexed by thread and number. -/
def horizontal {α : Type} (n : Nat) (next : Nat → Nat) (addr0 : Nat → Nat) (x : Nat → Nat → α) : Nat → Nat → α :=
  (forRange n (x, addr0) fun case s =>
    ((fun lane => Function.update (s.1 lane) case (shfl n (fun l => s.1 l case) s.2 lane)),
      (if case + 1 = n then s.2 else fun lane => shfl n s.2 next lane))).1

/-- The vertical rotation (macros.j2:135-149): thread `c` executes the cycles of case `c`; for the other cases its assignments
keep the values. -/
def vertical {α : Type} (n : Nat) (x : Nat → Nat → α) : Except PyErr (Nat → Nat → α) :=
  forRangeM n x fun case x => match registerAssignCycles n case with
    | .error e => .error e
    | .ok cs => .ok fun lane => if lane = case then execCycles cs (x lane) else x lane

/-- `warp_transpose` (macros.j2:94-164) for one group of `n` adjacent threads. The length must be a power of two; a length of
one generates no code. -/
def warpTranspose {α : Type} (n : Nat) (x : Nat → Nat → α) : Except PyErr (Nat → Nat → α) :=
  if n < 1 ∨ n &&& (n - 1) ≠ 0 then .error .templatingException
  else if n > 1 then
    let x := horizontal n (fun c => (c + 1) &&& (n - 1)) (fun c => c) x
    match vertical n x with
    | .error e => .error e
    | .ok x => .ok (horizontal n (fun c => (c + (n - 1)) &&& (n - 1)) (fun c => (n - c) &&& (n - 1)) x)
  else .ok x

end Verif.Util.Cycles
