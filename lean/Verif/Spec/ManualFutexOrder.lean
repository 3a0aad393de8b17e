import Verif.Model.ManualFutexOrder
import Verif.Spec.ManualEventFutex

/-! What has been observed. -/

namespace Verif.ManualFutexOrder

/-- The values the word has had. -/
def values (tr : List Ev) : List UInt32 := 0 :: tr.filterMap fun | .changed _ w => some w | _ => none

/-- The events of the members. -/
def plain (tr : List Ev) : List ManualFutex.Ev := tr.filterMap fun | .ev e => some e | _ => none

/-- With `k` observed, so is the event `e` of `tr = a ++ e :: b`, which writes the word: it was made by the thread `t` itself, or by one that has done something
afterwards that is observed. -/
def Knows (t : Nat) (k : View) (e : Ev) (b : List Ev) : Prop :=
  ∃ u w, e = .changed u w ∧ (u = t ∨ ∃ id, Ev.ev (.work u id) ∈ b ∧ id ∈ k)

/-- The execution with events `tr` passes through an instant at which `P` holds of the events so far, and which comes after all that thread `t` knows. -/
def Instant (t : Nat) (k : View) (tr : List Ev) (P : List ManualFutex.Ev → Prop) : Prop :=
  ∃ tr₁ tr₂, tr = tr₁ ++ tr₂ ∧ P (plain tr₁) ∧ ∀ a e b, tr = a ++ e :: b → Knows t k e b → ∃ m, tr₁ = a ++ e :: m

/-- The thread `t` knows of every write to the word. -/
def Informed (t : Nat) (k : View) (tr : List Ev) : Prop := ∀ a e b, tr = a ++ e :: b → (∃ u w, e = .changed u w) → Knows t k e b

end Verif.ManualFutexOrder
