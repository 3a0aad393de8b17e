import Verif.Base.LTS

/-!
# Executions that do not end (C114)

An execution that does not end is given by the states before its steps, by its steps, and by the events of each step.
-/

namespace Verif.Spec.Endless

variable {σ α ε : Type}

/-- The steps `lbl 0, lbl 1, …` lead from `st 0`, which can be reached from `s₀`, through `st 1, st 2, …`; step `i` has the events `ev i`. -/
structure Endless (step : StepFn σ (Nat × α) ε) (s₀ : σ) (st : Nat → σ) (lbl : Nat → Nat × α) (ev : Nat → List ε) : Prop where
  start : Reachable step s₀ (st 0)
  next : ∀ i, step (st i) (lbl i) = some (st (i + 1), ev i)

/-- Again and again. -/
def Often (p : Nat → Prop) : Prop := ∀ i, ∃ j, i ≤ j ∧ p j

/-- Thread `t` has a next step of one of the kinds `own` (steps that depend neither on the user nor on the clock). -/
def Ready (step : StepFn σ (Nat × α) ε) (own : σ → α → Prop) (s : σ) (t : Nat) : Prop := ∃ a r, own s a ∧ step s (t, a) = some r

/-- The scheduler does not forget any thread: a thread takes steps again and again, or again and again it has no next step
(weak fairness). -/
def Scheduled (step : StepFn σ (Nat × α) ε) (own : σ → α → Prop) (st : Nat → σ) (lbl : Nat → Nat × α) : Prop :=
  ∀ t, Often fun j => (lbl j).1 = t ∨ ¬ Ready step own (st j) t

/-- The scheduler, and the queues of the system, do not forget any thread: a thread that again and again has a next step takes steps again and again
(strong fairness). -/
def Served (step : StepFn σ (Nat × α) ε) (own : σ → α → Prop) (st : Nat → σ) (lbl : Nat → Nat × α) : Prop :=
  ∀ t, (Often fun j => Ready step own (st j) t) → Often fun j => (lbl j).1 = t

/-- A call can be passed over for ever: there is an execution without end from `s₀` in which the environment is `fair`, all `n` threads take steps again and
again, the events `again` occur again and again, and a call in progress at the beginning (`inside`) does not end. -/
def Starves (step : StepFn σ (Nat × α) ε) (s₀ : σ) (n : Nat) (fair : σ → α → Prop) (inside : σ → Prop) (ended : List ε → Prop) (again : List ε) :
    Prop :=
  ∃ st lbl ev, Endless step s₀ st lbl ev ∧ (∀ i, fair (st i) (lbl i).2) ∧ (∀ u, u < n → Often fun i => (lbl i).1 = u) ∧
    (∀ e ∈ again, Often fun i => e ∈ ev i) ∧ inside (st 0) ∧ ∀ i, ¬ ended (ev i)

end Verif.Spec.Endless
