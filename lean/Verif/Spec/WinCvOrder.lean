import Verif.Model.WinCvOrder
import Verif.Spec.WinCondVar

/-! What happens before what, from the events. -/

namespace Verif.WinCvOrder

/-- The events of the condition variable. -/
def plain (tr : List Ev) : List WinCv.Ev := tr.filterMap fun | .ev _ e => some e | _ => none

/-- The thread an event belongs to. -/
def Ev.thread : Ev → Nat
  | .ev t _ | .wrote t _ | .acq t _ | .rel t _ | .sync t _ => t

/-- The `i`-th event directly precedes the `j`-th: it belongs to the same thread, or unlocks what is locked, or belongs to the thread that is synchronised with. -/
def Edge (tr : List Ev) (i j : Nat) : Prop :=
  i < j ∧ ∃ a b, tr[i]? = some a ∧ tr[j]? = some b ∧
    (a.thread = b.thread ∨ (∃ t u l, a = .rel t l ∧ b = .acq u l) ∨ ∃ t, b = .sync t a.thread)

/-- The `i`-th event is the `j`-th or happens before it. -/
inductive Before (tr : List Ev) : Nat → Nat → Prop
  | refl (i : Nat) : Before tr i i
  | tail {i j k : Nat} : Before tr i j → Edge tr j k → Before tr i k

/-- The `i`-th event happens before what thread `t` does next. -/
def Seen (tr : List Ev) (i t : Nat) : Prop := ∃ j e, tr[j]? = some e ∧ e.thread = t ∧ Before tr i j

/-- The `i`-th event writes the counter. -/
def IsWrite (tr : List Ev) (i : Nat) : Prop := ∃ u v, tr[i]? = some (.wrote u v)

end Verif.WinCvOrder
