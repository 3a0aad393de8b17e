import Verif.Base.LTS

/-!
# Running alone (C111)

What it means that a call returns although no other thread takes a step any more: a thread that is suspended by the scheduler, anywhere
inside a function, cannot hinder it.
-/

namespace Verif.Spec.Alone

variable {σ α ε : Type}

/-- If only thread `t` takes steps from `s` on, `goal` (which looks at the state after a step and at the events of that step) is
reached after at most `k` of them: there is always a next step, and whichever it is, the goal is reached by it or stays within `k - 1` steps.
`fair` restricts the choices of the environment. -/
def Within (step : StepFn σ (Nat × α) ε) (fair : σ → α → Prop) (t : Nat) (goal : σ → List ε → Prop) : Nat → σ → Prop
  | 0, _ => False
  | k + 1, s =>
    (∃ a r, fair s a ∧ step s (t, a) = some r) ∧
    ∀ a s' es, fair s a → step s (t, a) = some (s', es) → goal s' es ∨ Within step fair t goal k s'

/-- The call `a` can be made in the state `s`, and it reaches the goal within `k` steps of its own. -/
def Call (step : StepFn σ (Nat × α) ε) (fair : σ → α → Prop) (t : Nat) (goal : σ → List ε → Prop) (a : α) (k : Nat) (s : σ) : Prop :=
  ∃ s' es, step s (t, a) = some (s', es) ∧ Within step fair t goal k s'

end Verif.Spec.Alone
