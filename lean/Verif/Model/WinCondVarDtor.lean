import Verif.Model.WinCondVar

/-!
# The destructor of the Windows condition variable

Source: include/boost/sync/detail/condition_variables/basic_condition_variable_windows.hpp 150-168.

The waiter states are the nodes of `Verif.WinCv`; deleting one closes its semaphore (lines 97-100).  Closing is assumed not to
fail (`BOOST_VERIFY`).
-/

namespace Verif.WinCv

/-- How the destructor ends: having deleted some waiter states, by an access to a deleted or non-existent one, or not at all within
the number of iterations given (lines 154-163). -/
inductive Destroyed
  | done (freed : List Nat)
  | invalid
  | running
  deriving DecidableEq, Repr

/-- Lines 157-163: `p` is the waiter state to be deleted next, `fin` is `end`, `freed` are those deleted so far. -/
def freeLoop (ns : List Node) (fin : Nat) : Nat → Nat → List Nat → Destroyed
  | 0, _, _ => .running
  | k + 1, p, freed =>
    if p ∈ freed then .invalid
    else match ns[p]? with
      | none => .invalid
      | some x => if x.next = fin then .done (freed ++ [p]) else freeLoop ns fin k x.next (freed ++ [p])

/-- Lines 150-168, at most `k` iterations. -/
def destroy (s : St) (k : Nat) : Destroyed :=
  if s.nodes = [] then .done [] else freeLoop s.nodes s.notify k s.notify []

end Verif.WinCv
