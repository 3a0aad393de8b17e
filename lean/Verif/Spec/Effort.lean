import Verif.Base.LTS

/-!
# Specification: the effort of calls

C96: a run of a component consists of steps the users or the environment are responsible for (a new call, a spurious failure, ...; which ones they are is
said by the predicate `charged`) and of steps the code makes by itself.  There is no livelock if each of the former allows only a bounded number of the
latter.
-/

namespace Verif.Spec.Effort

variable {σ ι ε : Type}

/-- The number of steps of a run for which `charged` holds. -/
def charges (step : StepFn σ ι ε) (charged : σ → ι → Bool) : σ → List ι → Nat
  | _, [] => 0
  | s, l :: ls =>
    (if charged s l then 1 else 0) +
    match step s l with
    | none => 0
    | some (s', _) => charges step charged s' ls

/-- Every run has at most `D` steps for each of its charged steps: the average effort is bounded. -/
def Bounded (step : StepFn σ ι ε) (s₀ : σ) (charged : σ → ι → Bool) (D : Nat) : Prop :=
  ∀ ls s tr, runFrom step s₀ ls = some (s, tr) → ls.length ≤ D * charges step charged s₀ ls

/-- No step is possible that is not charged. -/
def AtRest (step : StepFn σ ι ε) (charged : σ → ι → Bool) (s : σ) : Prop :=
  ∀ l r, step s l = some r → charged s l = true

/-- From every reachable state the system comes to rest, whatever the order of the steps, unless there are charged steps for ever: an infinite
run has charged steps after every point. -/
def Settles (step : StepFn σ ι ε) (s₀ : σ) (charged : σ → ι → Bool) : Prop :=
  ∀ (f : Nat → σ) (l : Nat → ι), Reachable step s₀ (f 0) → (∀ i, ∃ es, step (f i) (l i) = some (f (i + 1), es)) →
    ∀ i, ∃ j, i ≤ j ∧ charged (f j) (l j) = true

end Verif.Spec.Effort
