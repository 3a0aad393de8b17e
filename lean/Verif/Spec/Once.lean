/-!
# What "initialised once" means

A small specification of one-time initialisation, independent of any implementation.  `κ` is what the initialisation
produces (a key, a pointer).  An execution is summed up by the events below; `Once.accepts` says which sequences of events
are allowed.
-/

namespace Verif.Once

/-- What can be seen of a one-time initialisation. -/
inductive Ev (κ : Type)
  /-- thread `t` starts to initialise -/
  | began (t : Nat)
  /-- thread `t` has initialised, producing `k` -/
  | done (t : Nat) (k : κ)
  /-- the initialisation by thread `t` failed -/
  | failed (t : Nat)
  /-- thread `t` goes on behind the initialisation and uses `k` -/
  | proceeded (t : Nat) (k : κ)
  deriving DecidableEq, Repr

/-- The state of the initialisation. -/
inductive Ph (κ : Type)
  | fresh
  | running (t : Nat)
  | complete (k : κ)
  deriving DecidableEq, Repr

variable {κ : Type} [DecidableEq κ]

/-- Whether an event may occur and the state after it: nobody begins while another one is at it or after it was
completed, only the one that began can complete or fail, a failure makes it possible to begin again, nobody proceeds
before completion and everybody proceeds with what the completed initialisation produced. -/
def next : Ph κ → Ev κ → Option (Ph κ)
  | .fresh, .began t => some (.running t)
  | .running t, .done t' k => if t' = t then some (.complete k) else none
  | .running t, .failed t' => if t' = t then some .fresh else none
  | .complete k, .proceeded _ k' => if k' = k then some (.complete k) else none
  | _, _ => none

/-- The state after a sequence of events, `none` if the sequence is not allowed. -/
def after : List (Ev κ) → Option (Ph κ) :=
  List.foldl (fun p e => p.bind fun p => next p e) (some .fresh)

/-- The sequence is allowed. -/
def accepts (es : List (Ev κ)) : Prop := (after es).isSome

end Verif.Once
