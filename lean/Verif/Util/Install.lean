/-
Model of africanus/util/cub.py and africanus/util/trove.py: the installation of header files on first use, by any number of
threads of any number of processes, with crashes.

The files of the include directory, the archive and the flag and lock of each process are the state. Downloading,
unpacking and hashing are parameters: the network may deliver anything. `rmtree` removes the files one after the other
and is assumed to remove all of them; `shutil.move` renames the directory if the temporary directory is on the same
file system, and otherwise copies it file by file. Permissions and disk space appear as exceptions that may be raised.
-/
import Verif.Basic
import Mathlib.Logic.Function.Basic
import Mathlib.Logic.Relation

set_option autoImplicit false

namespace Verif.Install

/-- The contents of a directory (util/cub.py:40-140). -/
abbrev Files (P B : Type) := P → Option B

/-- What differs between the two libraries and what is outside the model: the check of an installation, the hash and its
expected value, the contents of an archive (`none`: not a zip file), and if the move is a rename (util/cub.py:40-140). -/
structure Cfg (P B H : Type) where
  check : Files P B → Bool
  sha : B → H
  expected : H
  unzip : B → Option (Files P B)
  rename : Bool

/-- `is_cub_installed` (util/cub.py:51-76): the header and the readme exist, and a line of the readme has the
version (`hasVersion` of its text). -/
def isCubInstalled {P B : Type} (header readme : P) (hasVersion : B → Bool) (dir : Files P B) : Bool :=
  (dir header).isSome && match dir readme with
    | none => false
    | some text => hasVersion text

/-- `is_trove_installed` (util/trove.py:51-59): the readme exists. -/
def isTroveInstalled {P B : Type} (readme : P) (dir : Files P B) : Bool := (dir readme).isSome

/-- Where a thread is (util/cub.py:40-140). -/
inductive PC (P B : Type)
  /-- not in `cub_dir` -/
  | idle
  /-- `if _cub_installed is False` (util/cub.py:146; util/trove.py:127) -/
  | check1
  /-- `with _cub_install_lock` (util/cub.py:147; util/trove.py:128) -/
  | want
  /-- the second check (util/cub.py:149; util/trove.py:130) -/
  | check2
  /-- is there an archive with the right hash (util/cub.py:85-87; util/trove.py:68-70) -/
  | archive
  /-- `download_cub` (util/cub.py:39-48, 91; util/trove.py:39-48, 74) -/
  | download
  /-- the comparison of the hashes (util/cub.py:93-100; util/trove.py:76-83) -/
  | compare
  /-- `ZipFile(archive)` (util/cub.py:103; util/trove.py:86) -/
  | openZip
  /-- `shutil.rmtree(_cub_dir)` (util/cub.py:105-109; util/trove.py:88-92) -/
  | remove
  /-- `extractall` into the temporary directory (util/cub.py:111-116; util/trove.py:94-99) -/
  | extract
  /-- `shutil.move` (util/cub.py:119; util/trove.py:102) -/
  | move (content : Files P B)
  /-- the final check (util/cub.py:129-133; util/trove.py:112-115) -/
  | final
  /-- `_cub_installed = True` (util/cub.py:151; util/trove.py:132) -/
  | setFlag
  /-- `return _cub_dir` (util/cub.py:153; util/trove.py:134) -/
  | returned

/-- The global state of a process: `_cub_installed`, and the thread that holds the lock (util/cub.py:40-140). -/
structure Proc where
  flag : Bool
  lock : Option Nat

/-- The state of the machine. Threads are numbered within their process (util/cub.py:40-140). -/
structure St (P B : Type) where
  dir : Files P B
  archive : Option B
  proc : Nat → Proc
  pc : Nat → Nat → PC P B

variable {P B H : Type}

/-- Thread `t` of process `p` goes to `x` (util/cub.py:40-140). -/
def St.goto (s : St P B) (p t : Nat) (x : PC P B) : St P B :=
  { s with pc := Function.update s.pc p (Function.update (s.pc p) t x) }

/-- Leaving the `with` statement of `cub_dir` (util/cub.py:147-151; util/trove.py:128-132). -/
def St.unlock (s : St P B) (p : Nat) : St P B :=
  { s with proc := Function.update s.proc p { s.proc p with lock := none } }

/-- One step of thread `t` of process `p` in `cub_dir` and `_install_cub` (util/cub.py:79-133, 143-153), or in `trove_dir` and
`_install_trove` (util/trove.py:62-115, 124-134), which differ in their check only. -/
inductive Step [DecidableEq P] [DecidableEq H] (c : Cfg P B H) (p t : Nat) : St P B → St P B → Prop
  | call (s) : s.pc p t = .idle → Step c p t s (s.goto p t .check1)
  | quick (s) : s.pc p t = .check1 → (s.proc p).flag = true → Step c p t s (s.goto p t .returned)
  | slow (s) : s.pc p t = .check1 → (s.proc p).flag = false → Step c p t s (s.goto p t .want)
  | acquire (s) : s.pc p t = .want → (s.proc p).lock = none →
      Step c p t s { s.goto p t .check2 with proc := Function.update s.proc p { s.proc p with lock := some t } }
  | already (s) : s.pc p t = .check2 → (s.proc p).flag = true → Step c p t s ((s.goto p t .returned).unlock p)
  | install (s) : s.pc p t = .check2 → (s.proc p).flag = false → Step c p t s (s.goto p t .archive)
  | reuse (s) (b : B) : s.pc p t = .archive → s.archive = some b → c.sha b = c.expected → Step c p t s (s.goto p t .openZip)
  | fetch (s) : s.pc p t = .archive → (∀ b, s.archive = some b → c.sha b ≠ c.expected) → Step c p t s (s.goto p t .download)
  /-- opening the file and writing to it: any contents so far -/
  | write (s) (b : B) : s.pc p t = .download → Step c p t s { s with archive := some b }
  | written (s) : s.pc p t = .download → Step c p t s (s.goto p t .compare)
  | match' (s) (b : B) : s.pc p t = .compare → s.archive = some b → c.sha b = c.expected → Step c p t s (s.goto p t .openZip)
  | opened (s) (b : B) (x : Files P B) : s.pc p t = .openZip → s.archive = some b → c.unzip b = some x →
      Step c p t s (s.goto p t .remove)
  | unlink (s) (f : P) : s.pc p t = .remove → Step c p t s { s with dir := Function.update s.dir f none }
  | removed (s) : s.pc p t = .remove → (∀ f, s.dir f = none) → Step c p t s (s.goto p t .extract)
  | extracted (s) (b : B) (x : Files P B) : s.pc p t = .extract → s.archive = some b → c.unzip b = some x →
      Step c p t s (s.goto p t (.move x))
  | rename (s) (x : Files P B) : s.pc p t = .move x → c.rename = true → Step c p t s { s.goto p t .final with dir := x }
  | copy (s) (x : Files P B) (f : P) : s.pc p t = .move x → c.rename = false →
      Step c p t s { s with dir := Function.update s.dir f (x f) }
  | copied (s) (x : Files P B) : s.pc p t = .move x → c.rename = false → (∀ f, s.dir f = x f) →
      Step c p t s (s.goto p t .final)
  | good (s) : s.pc p t = .final → c.check s.dir = true → Step c p t s (s.goto p t .setFlag)
  | bad (s) : s.pc p t = .final → c.check s.dir = false → Step c p t s ((s.goto p t .idle).unlock p)
  | set (s) : s.pc p t = .setFlag →
      Step c p t s { s.goto p t .returned with proc := Function.update s.proc p { flag := true, lock := none } }
  /-- An exception: no network, a wrong hash, not a zip file, no space. -/
  | raise (s) : (s.pc p t = .download ∨ s.pc p t = .compare ∨ s.pc p t = .openZip ∨ s.pc p t = .extract ∨
      ∃ x, s.pc p t = .move x) → Step c p t s ((s.goto p t .idle).unlock p)
  | leave (s) : s.pc p t = .returned → Step c p t s (s.goto p t .idle)

/-- The process dies at any point and is started again: on import, the flag is what the check says (util/cub.py:136-140;
util/trove.py:118-121). -/
def St.restart (s : St P B) (c : Cfg P B H) (p : Nat) : St P B :=
  { s with proc := Function.update s.proc p { flag := c.check s.dir, lock := none }
           pc := Function.update s.pc p fun _ => .idle }

/-- What can happen: a step of some thread of a process in `ps`, or, if `crashes`, the restart of one (util/cub.py:40-140). -/
inductive Next [DecidableEq P] [DecidableEq H] (c : Cfg P B H) (ps : Nat → Prop) (crashes : Prop) : St P B → St P B → Prop
  | step (p t : Nat) (s s') : ps p → Step c p t s s' → Next c ps crashes s s'
  | crash (p : Nat) (s) : ps p → crashes → Next c ps crashes s (s.restart c p)

/-- All processes have just been started, with these files and this archive (util/cub.py:40-140). -/
def start (c : Cfg P B H) (dir : Files P B) (archive : Option B) : St P B :=
  ⟨dir, archive, fun _ => ⟨c.check dir, none⟩, fun _ _ => .idle⟩

/-- The states that can be reached (util/cub.py:40-140). -/
def Reach [DecidableEq P] [DecidableEq H] (c : Cfg P B H) (ps : Nat → Prop) (crashes : Prop) (s s' : St P B) : Prop :=
  Relation.ReflTransGen (Next c ps crashes) s s'

end Verif.Install
