/-
Model of memoize_on_key (africanus/util/code.py:46-117) as a transition system.

Any number of threads call the decorated function any number of times; each thread is at one point of the wrapper. One step
is one action of one thread, so every interleaving is a sequence of steps. Evaluating the decorated function may return any
value or raise; it does not call the decorated function again (the lock is not re-entrant, such a call waits for itself).
-/
import Verif.Basic
import Mathlib.Logic.Function.Basic

set_option autoImplicit false

namespace Verif.Util.Memo

variable {Args Key Val : Type}

/-- Where a thread is inside the wrapper (code.py:105-117). -/
inductive Pc (Args Key Val : Type)
  /-- not inside the wrapper -/
  | idle
  /-- waiting for the lock (line 110) -/
  | waiting (k : Key) (a : Args)
  /-- holding the lock, about to look up the key (line 112) -/
  | lookup (k : Key) (a : Args)
  /-- evaluating the function (line 114) -/
  | evaluating (k : Key) (a : Args)
  /-- about to store the value (line 114) -/
  | storing (k : Key) (v : Val)
  /-- about to release the lock and return or raise (lines 112, 114, 115) -/
  | leaving (k : Key) (r : Except PyErr Val)

/-- What is seen from outside: evaluations of the decorated function and outcomes of calls, by thread
(a part of the model of threads, for util/code.py:46-117). -/
inductive Event (Args Key Val : Type)
  /-- an evaluation that returned -/
  | evalOk (t : Nat) (k : Key) (a : Args) (v : Val)
  /-- an evaluation that raised -/
  | evalErr (t : Nat) (k : Key) (a : Args) (e : PyErr)
  /-- a call came back -/
  | done (t : Nat) (k : Key) (r : Except PyErr Val)
  /-- the key function raised -/
  | keyErr (t : Nat) (e : PyErr)

/-- State of the decorator object (code.py:100-103) and of all threads. -/
structure State (Args Key Val : Type) where
  lock : Option Nat
  cache : Key → Option Val
  pc : Nat → Pc Args Key Val
  hist : List (Event Args Key Val)

/-- A new decorator object (code.py:100-103). -/
def init : State Args Key Val := ⟨none, fun _ => none, fun _ => .idle, []⟩

variable [DecidableEq Key]

/-- One step of thread `t` (code.py:107-115). -/
inductive Step (keyFn : Args → Except PyErr Key) : State Args Key Val → State Args Key Val → Prop
  /-- line 108 -/
  | call (s : State Args Key Val) (t : Nat) (a : Args) (k : Key) (h : s.pc t = .idle) (hk : keyFn a = .ok k) :
    Step keyFn s { s with pc := Function.update s.pc t (.waiting k a) }
  /-- line 108, the key function raises -/
  | keyError (s : State Args Key Val) (t : Nat) (a : Args) (e : PyErr) (h : s.pc t = .idle) (hk : keyFn a = .error e) :
    Step keyFn s { s with hist := s.hist ++ [.keyErr t e] }
  /-- line 110 -/
  | acquire (s : State Args Key Val) (t : Nat) (k : Key) (a : Args) (h : s.pc t = .waiting k a) (hl : s.lock = none) :
    Step keyFn s { s with lock := some t, pc := Function.update s.pc t (.lookup k a) }
  /-- line 112 -/
  | hit (s : State Args Key Val) (t : Nat) (k : Key) (a : Args) (v : Val) (h : s.pc t = .lookup k a) (hc : s.cache k = some v) :
    Step keyFn s { s with pc := Function.update s.pc t (.leaving k (.ok v)) }
  /-- line 113 -/
  | miss (s : State Args Key Val) (t : Nat) (k : Key) (a : Args) (h : s.pc t = .lookup k a) (hc : s.cache k = none) :
    Step keyFn s { s with pc := Function.update s.pc t (.evaluating k a) }
  /-- line 114, the function returns -/
  | evalOk (s : State Args Key Val) (t : Nat) (k : Key) (a : Args) (v : Val) (h : s.pc t = .evaluating k a) :
    Step keyFn s { s with pc := Function.update s.pc t (.storing k v), hist := s.hist ++ [.evalOk t k a v] }
  /-- line 114, the function raises -/
  | evalErr (s : State Args Key Val) (t : Nat) (k : Key) (a : Args) (e : PyErr) (h : s.pc t = .evaluating k a) :
    Step keyFn s { s with pc := Function.update s.pc t (.leaving k (.error e)), hist := s.hist ++ [.evalErr t k a e] }
  /-- line 114, the assignment -/
  | store (s : State Args Key Val) (t : Nat) (k : Key) (v : Val) (h : s.pc t = .storing k v) :
    Step keyFn s { s with cache := Function.update s.cache k (some v), pc := Function.update s.pc t (.leaving k (.ok v)) }
  /-- end of the `with` statement -/
  | leave (s : State Args Key Val) (t : Nat) (k : Key) (r : Except PyErr Val) (h : s.pc t = .leaving k r) :
    Step keyFn s { s with lock := none, pc := Function.update s.pc t .idle, hist := s.hist ++ [.done t k r] }

/-- States reached by any sequence of steps (a part of the model of threads, for util/code.py:46-117). -/
inductive Reachable (keyFn : Args → Except PyErr Key) : State Args Key Val → Prop
  | init : Reachable keyFn init
  | step (s s' : State Args Key Val) (h : Reachable keyFn s) (hs : Step keyFn s s') : Reachable keyFn s'

end Verif.Util.Memo
