import Verif.Model.AutoFutexOrder
import Verif.Spec.AutoEventFutex

/-! What has been observed. -/

namespace Verif.AutoFutexOrder

/-- The values the word has had. -/
def values (tr : List Ev) : List UInt32 := 0 :: tr.filterMap fun | .changed _ w => some w | _ => none

/-- The events of the members. -/
def plain (tr : List Ev) : List AutoFutex.Ev := tr.filterMap fun | .ev e => some e | _ => none

/-- With `k` observed, so is the event `e` of `tr = a ++ e :: b`, which changes the word: it was made by the thread `t` itself, or by one that has done something
afterwards that is observed. -/
def Knows (t : Nat) (k : View) (e : Ev) (b : List Ev) : Prop :=
  ∃ u w, e = .changed u w ∧ (u = t ∨ ∃ id, Ev.ev (.work u id) ∈ b ∧ id ∈ k)

/-- The execution with events `tr` to `s` passes through a state in which `P` holds, and which comes after all that thread `t` knows. -/
def Instant (n : Nat) (t : Nat) (k : View) (tr : List Ev) (s : St) (P : List AutoFutex.Ev → AutoFutex.St → Prop) : Prop :=
  ∃ tr₁ s₁ tr₂, tr = tr₁ ++ tr₂ ∧ Exec step (init n) tr₁ s₁ ∧ Exec step s₁ tr₂ s ∧ P (plain tr₁) s₁.base ∧
    ∀ a e b, tr = a ++ e :: b → Knows t k e b → ∃ m, tr₁ = a ++ e :: m

/-- The thread `t` knows of every change of the word. -/
def Informed (t : Nat) (k : View) (tr : List Ev) : Prop := ∀ a e b, tr = a ++ e :: b → (∃ u w, e = .changed u w) → Knows t k e b

end Verif.AutoFutexOrder
