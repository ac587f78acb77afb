/-
Model of SingletonMixin (africanus/util/code.py:12-23) as a transition system.

The classes are those derived from the mixin. `mro c` lists the classes in which an attribute of `c` is looked up, `c` first;
the mixin itself, whose attribute is None, is left out. The lock is an attribute of the mixin, so all classes share it. Threads
are numbered; each is at one point of `instance`. Creating an instance gives an object not seen before or raises; the
constructor does not call `instance` (the lock is not re-entrant). Objects are numbered, `truthy` is their truth value.
-/
import Verif.Basic
import Mathlib.Logic.Function.Basic

set_option autoImplicit false

namespace Verif.Util.Singleton

/-- Where a thread is inside `cls.instance()` (code.py:17-23). -/
inductive Pc
  /-- not inside the method -/
  | idle
  /-- about to read the attribute (line 18) -/
  | first (c : Nat)
  /-- waiting for the lock (line 19) -/
  | waiting (c : Nat)
  /-- holding the lock, about to read the attribute (line 20) -/
  | second (c : Nat)
  /-- holding the lock, creating the instance (line 21) -/
  | creating (c : Nat)
  /-- holding the lock, about to set the attribute (line 21) -/
  | setting (c : Nat) (o : Nat)
  /-- about to release the lock; with an exception if the constructor raised -/
  | leaving (c : Nat) (e : Option PyErr)
  /-- about to read the attribute to be returned (line 23) -/
  | last (c : Nat)

/-- What is seen from outside (a part of the model of threads, for util/code.py:12-23). -/
inductive Event
  /-- `cls.instance()` was called -/
  | called (t c : Nat)
  /-- an instance was created by `cls()` -/
  | created (t c o : Nat)
  /-- a call returned an object, or None if the attribute was not set -/
  | returned (t c : Nat) (o : Option Nat)
  /-- a call raised -/
  | raised (t c : Nat) (e : PyErr)
deriving DecidableEq

/-- State: the shared lock, the attribute of each class, the threads, what happened
(a part of the model of threads, for util/code.py:12-23). -/
structure State where
  lock : Option Nat
  own : Nat → Option Nat
  pc : Nat → Pc
  hist : List Event

/-- No instance exists (code.py:13-14). -/
def init : State := ⟨none, fun _ => none, fun _ => .idle, []⟩

/-- The attribute as seen from a class (code.py:18, 20, 23): the first class of the list that has it. -/
def attr (mro : Nat → List Nat) (s : State) (c : Nat) : Option Nat := (mro c).findSome? s.own

/-- The object was not created before (code.py:21). -/
def Fresh (s : State) (o : Nat) : Prop := ∀ t c, Event.created t c o ∉ s.hist

/-- One step of thread `t` (code.py:17-23). -/
inductive Step (mro : Nat → List Nat) (truthy : Nat → Bool) : State → State → Prop
  | call (s : State) (t c : Nat) (h : s.pc t = .idle) :
    Step mro truthy s { s with pc := Function.update s.pc t (.first c), hist := s.hist ++ [.called t c] }
  /-- line 18, the attribute is true -/
  | firstHit (s : State) (t c o : Nat) (h : s.pc t = .first c) (ha : attr mro s c = some o) (ho : truthy o = true) :
    Step mro truthy s { s with pc := Function.update s.pc t (.last c) }
  /-- line 18, the attribute is None or false -/
  | firstMiss (s : State) (t c : Nat) (h : s.pc t = .first c) (ha : ∀ o, attr mro s c = some o → truthy o = false) :
    Step mro truthy s { s with pc := Function.update s.pc t (.waiting c) }
  /-- line 19 -/
  | acquire (s : State) (t c : Nat) (h : s.pc t = .waiting c) (hl : s.lock = none) :
    Step mro truthy s { s with lock := some t, pc := Function.update s.pc t (.second c) }
  /-- line 20, the attribute is true -/
  | secondHit (s : State) (t c o : Nat) (h : s.pc t = .second c) (ha : attr mro s c = some o) (ho : truthy o = true) :
    Step mro truthy s { s with pc := Function.update s.pc t (.leaving c none) }
  /-- line 20, the attribute is None or false -/
  | secondMiss (s : State) (t c : Nat) (h : s.pc t = .second c) (ha : ∀ o, attr mro s c = some o → truthy o = false) :
    Step mro truthy s { s with pc := Function.update s.pc t (.creating c) }
  /-- line 21, the constructor returns -/
  | create (s : State) (t c o : Nat) (h : s.pc t = .creating c) (hf : Fresh s o) :
    Step mro truthy s { s with pc := Function.update s.pc t (.setting c o), hist := s.hist ++ [.created t c o] }
  /-- line 21, the constructor raises -/
  | fail (s : State) (t c : Nat) (e : PyErr) (h : s.pc t = .creating c) :
    Step mro truthy s { s with pc := Function.update s.pc t (.leaving c (some e)) }
  /-- line 21, the assignment sets the attribute of the class itself -/
  | set (s : State) (t c o : Nat) (h : s.pc t = .setting c o) :
    Step mro truthy s { s with own := Function.update s.own c (some o), pc := Function.update s.pc t (.leaving c none) }
  /-- end of the `with` statement -/
  | leave (s : State) (t c : Nat) (h : s.pc t = .leaving c none) :
    Step mro truthy s { s with lock := none, pc := Function.update s.pc t (.last c) }
  /-- end of the `with` statement after an exception -/
  | leaveErr (s : State) (t c : Nat) (e : PyErr) (h : s.pc t = .leaving c (some e)) :
    Step mro truthy s { s with lock := none, pc := Function.update s.pc t .idle, hist := s.hist ++ [.raised t c e] }
  /-- line 23 -/
  | ret (s : State) (t c : Nat) (h : s.pc t = .last c) :
    Step mro truthy s { s with pc := Function.update s.pc t .idle, hist := s.hist ++ [.returned t c (attr mro s c)] }

/-- States reached by any sequence of steps (a part of the model of threads, for util/code.py:12-23). -/
inductive Reachable (mro : Nat → List Nat) (truthy : Nat → Bool) : State → Prop
  | init : Reachable mro truthy init
  | step (s s' : State) (h : Reachable mro truthy s) (hs : Step mro truthy s s') : Reachable mro truthy s'

end Verif.Util.Singleton
