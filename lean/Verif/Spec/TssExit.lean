import Verif.Spec.Tss

/-! # Specification of what happens at thread exit, in terms of traces

Each of these reads the events of one thread, from left to right. -/

namespace Verif.Tss

/-! ## callbacks -/

/-- Callbacks that remain to be run: those of the batch being run, next first, and those registered since it was started, most recent first. -/
structure Callbacks where
  batch : List Nat
  later : List Nat
  deriving DecidableEq, Repr

/-- The discipline: a callback runs when it is the next of the batch; when the batch is finished, all registered since form the
new one. -/
def cbNext (t : Nat) : Option Callbacks → Ev → Option Callbacks
  | none, _ => none
  | some c, .registered t' id => if t' = t then some ⟨c.batch, id :: c.later⟩ else some c
  | some c, .ran t' id =>
    if t' = t then
      match c.batch, c.later with
      | x :: rest, later => if x = id then some ⟨rest, later⟩ else none
      | [], x :: rest => if x = id then some ⟨rest, []⟩ else none
      | [], [] => none
    else some c
  | some c, _ => some c

/-- The callbacks remaining after the trace; none if they were not run in the required order. -/
def callbacks (t : Nat) (tr : List Ev) : Option Callbacks := tr.foldl (cbNext t) (some ⟨[], []⟩)

def isRegistered (t id : Nat) : Ev → Bool
  | .registered t' id' => decide (t' = t ∧ id' = id)
  | _ => false

def isRan (t id : Nat) : Ev → Bool
  | .ran t' id' => decide (t' = t ∧ id' = id)
  | _ => false

/-! ## notifications -/

/-- Notifications that remain, and whether the mutex of the first has been unlocked. -/
structure Notifications where
  queue : List (Nat × Nat)
  unlocked : Bool
  deriving DecidableEq, Repr

/-- The discipline: the mutex of the first is unlocked, then its condition variable is notified. -/
def ntNext (t : Nat) : Option Notifications → Ev → Option Notifications
  | none, _ => none
  | some q, .notifyRegistered t' n => if t' = t then some ⟨q.queue ++ [n], q.unlocked⟩ else some q
  | some q, .unlocked t' m =>
    if t' = t then
      match q.queue, q.unlocked with
      | n :: _, false => if n.1 = m then some ⟨q.queue, true⟩ else none
      | _, _ => none
    else some q
  | some q, .notified t' c =>
    if t' = t then
      match q.queue, q.unlocked with
      | n :: rest, true => if n.2 = c then some ⟨rest, false⟩ else none
      | _, _ => none
    else some q
  | some q, _ => some q

def notifications (t : Nat) (tr : List Ev) : Option Notifications := tr.foldl (ntNext t) (some ⟨[], false⟩)

/-! ## order -/

/-- 1: callback, 2: cleanup of a value at thread exit, 3: notification. -/
def rank (t : Nat) : Ev → Option Nat
  | .ran t' _ => if t' = t then some 1 else none
  | .cleaned t' .exit _ _ => if t' = t then some 2 else none
  | .unlocked t' _ => if t' = t then some 3 else none
  | .notified t' _ => if t' = t then some 3 else none
  | _ => none

/-- All callbacks come before all cleanups, and these before all notifications. -/
def Ordered (t : Nat) (tr : List Ev) : Prop := (tr.filterMap (rank t)).Pairwise (· ≤ ·)

/-! ## what callbacks and cleanup functions do -/

/-- Whether the thread has begun to exit, and how many values, callbacks and notifications it has registered since. -/
def busyNext (t : Nat) (a : Bool × Nat) : Ev → Bool × Nat
  | .exiting t' => if t' = t then (true, a.2) else a
  | .stored t' _ => if t' = t ∧ a.1 = true then (true, a.2 + 1) else a
  | .registered t' _ => if t' = t ∧ a.1 = true then (true, a.2 + 1) else a
  | .notifyRegistered t' _ => if t' = t ∧ a.1 = true then (true, a.2 + 1) else a
  | _ => a

/-- How many values, callbacks and notifications the callbacks and cleanup functions called at the exit of the thread have registered. -/
def busy (t : Nat) (tr : List Ev) : Nat := (tr.foldl (busyNext t) (false, 0)).2

/-- Whether a value has been cleaned up because of the exit of the thread, and whether a callback has been registered since. -/
def lateNext (t : Nat) (a : Bool × Bool) : Ev → Bool × Bool
  | .cleaned t' .exit _ _ => if t' = t then (true, a.2) else a
  | .registered t' _ => if t' = t then (a.1, a.2 || a.1) else a
  | _ => a

/-- A cleanup function called at the exit of the thread has registered a callback. -/
def late (t : Nat) (tr : List Ev) : Bool := (tr.foldl (lateNext t) (false, false)).2

end Verif.Tss
