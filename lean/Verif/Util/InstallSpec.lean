/- Specification: what a user of a directory of header files expects to find in it. -/
import Verif.Util.Install

set_option autoImplicit false

namespace Verif.Install

variable {P B H : Type}

/-- The directory holds exactly the files of an archive with the published hash, and passes the check. -/
def Complete (c : Cfg P B H) (dir : Files P B) : Prop :=
  ∃ b, c.sha b = c.expected ∧ c.unzip b = some dir ∧ c.check dir = true

/-- Removing a file does not make a directory pass the check. -/
def CheckMono [DecidableEq P] (c : Cfg P B H) : Prop :=
  ∀ dir f, c.check (Function.update dir f none) = true → c.check dir = true

/-- The thread is inside the region the lock protects. -/
def Inside : PC P B → Prop
  | .idle | .check1 | .want | .returned => False
  | _ => True

/-- The thread is installing: it may change the archive or the directory. -/
def Installing : PC P B → Prop
  | .idle | .check1 | .want | .returned | .check2 => False
  | _ => True

end Verif.Install
