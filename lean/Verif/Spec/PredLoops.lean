import Verif.Model.PredLoops

/-! Specification vocabulary for predicate waits. -/

namespace Verif.PredLoop

/-- The value of the predicate evaluated last. -/
def lastPred (tr : List Ev) : Option Bool :=
  tr.foldl (fun o e => match e with | .pred b => some b | _ => o) none

/-- The first reading of the clock. -/
def firstClock : List Ev → Option Int
  | [] => none
  | .clock c :: _ => some c
  | _ :: es => firstClock es

/-- Every wait ends at the first reading of the clock plus the duration, at the latest. -/
def OneTimeout (dur : Int) (tr : List Ev) : Prop :=
  ∀ l, Ev.waits l ∈ tr → ∃ c e, firstClock tr = some c ∧ l = some e ∧ e ≤ c + dur

end Verif.PredLoop
