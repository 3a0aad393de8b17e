import Verif.Model.WinCvFail
import Verif.Spec.WinCondVar

/-!
# What the Windows condition variable should do when locks fail (C113)

Trace functions only; the events of `Verif.WinCv` are looked at by its own specification.
-/

namespace Verif.WinCvFail

/-- The event of the condition variable proper. -/
def Ev.plain? : Ev → Option WinCv.Ev
  | .ev e => some e
  | _ => none

/-- The events of the condition variable proper. -/
def plain (tr : List Ev) : List WinCv.Ev := tr.filterMap Ev.plain?

def Ev.isAbandoned : Ev → Bool
  | .abandoned _ => true
  | _ => false

/-- The number of waits that were left because the internal mutex could not be locked after the wait of the system. -/
def abandoned (tr : List Ev) : Nat := tr.countP Ev.isAbandoned

/-- Thread `t` is outside all functions. -/
def Outside (s : St) (t : Nat) : Prop := s.cv.ths[t]? = some .idle

/-- Thread `t` is blocked in the wait of the system. -/
def Blocked (s : St) (t : Nat) : Prop := ∃ k q, s.cv.ths[t]? = some (.blocked k q)

end Verif.WinCvFail
