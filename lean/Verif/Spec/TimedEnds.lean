import Verif.Spec.Endless

/-!
# Time passes (C117)
-/

namespace Verif.Spec.Endless

variable {σ α ε : Type}

/-- A call with a time limit does not sleep for ever, in one sleep or in many, without its time limit passing: if thread `t` does not return any more and again
and again sleeps with a time limit, its sleep ends with the time-out `out`. -/
def Timely (asleep : σ → Nat → Prop) (ends : Nat → List ε → Prop) (out : α) (st : Nat → σ) (lbl : Nat → Nat × α) (ev : Nat → List ε) : Prop :=
  ∀ t i, (∀ j, i ≤ j → ¬ ends t (ev j)) → (Often fun j => asleep (st j) t) → ∃ j, i ≤ j ∧ lbl j = (t, out)

/-- The same for calls that look at the time themselves as well: `out` are the ways to find that the time limit has passed. -/
def TimelyBy (asleep : σ → Nat → Prop) (ends : Nat → List ε → Prop) (out : α → Prop) (st : Nat → σ) (lbl : Nat → Nat × α) (ev : Nat → List ε) : Prop :=
  ∀ t i, (∀ j, i ≤ j → ¬ ends t (ev j)) → (Often fun j => asleep (st j) t) → ∃ j a, i ≤ j ∧ out a ∧ lbl j = (t, a)

/-- The clock reaches the deadline: if thread `t` does not return any more and again and again reads the clock, one of the readings, `late`, is not before the deadline. -/
def Reaches (reads : σ → Nat → Prop) (ends : Nat → List ε → Prop) (late : α) (st : Nat → σ) (lbl : Nat → Nat × α) (ev : Nat → List ε) : Prop :=
  ∀ t i, (∀ j, i ≤ j → ¬ ends t (ev j)) → (Often fun j => reads (st j) t) → ∃ j, i ≤ j ∧ reads (st j) t ∧ lbl j = (t, late)

end Verif.Spec.Endless
