import Verif.Base.LTS

/-!
# Memory accesses of the TSS manager

Models which memory the functions of src/tss_manager.hpp read and write, and which accesses are made while holding `m_mutex`
(line 123).  What is read and written is modelled in `Verif.Tss`; here only the accesses matter.  A thread executes one
function of the manager after the other, each being a list of accesses; threads interleave access by access.

Each `std::vector` is one location (`resize`, `push_back` and `swap` write all of it).  The lists
`m_at_exit_functions` and `m_notify_at_exit` of a context are only ever accessed by the thread itself and are left out,
as are accesses to the context pointer of the thread.  User code run by the manager is represented by the calls the
thread may make after the function.
-/

namespace Verif.TssRace

/-- The locations (lines 69, 125-129). -/
inductive Loc
  /-- `m_thread_contexts`, line 125 -/
  | list
  /-- `m_storage_cleanup`, line 127 -/
  | table
  /-- `m_freed_keys`, line 129 -/
  | freed
  /-- `m_storage` of the context of a thread, line 69 -/
  | storage (t : Nat)
  deriving DecidableEq, Repr

/-- The accesses made by lines 74-87, 140-148, 164-193, 196-255. -/
inductive Micro
  /-- lock or unlock `m_mutex` -/
  | lock
  | unlock
  | rd (l : Loc)
  | wr (l : Loc)
  /-- line 145 -/
  | enlist
  /-- line 191 -/
  | delist
  /-- line 235: read the list of contexts, visit them all -/
  | visit
  /-- line 193 -/
  | free (t : Nat)
  deriving DecidableEq, Repr

/-- A thread inside one of the functions of lines 74-87, 140-255. -/
structure Th where
  /-- what is left of the function being executed -/
  todo : List Micro
  /-- the thread has a context in the list -/
  ctx : Bool
  deriving DecidableEq, Repr

/-- The mutex (line 123) and the threads. -/
structure St where
  /-- the owner of `m_mutex` -/
  owner : Option Nat
  ths : List Th
  deriving DecidableEq, Repr

/-- The functions a thread may call: `get_value` 74, `set_value` 82, `new_key` 196, `delete_key` 222, `destroy_thread_context` 150. -/
inductive Act
  | get
  | set
  | newKey
  | deleteKey
  /-- the thread exits with `n` values other than null -/
  | exit (n : Nat)
  /-- the next access -/
  | go
  deriving DecidableEq, Repr

/-- A fresh manager (line 132) and `n` threads without context. -/
def init (n : Nat) : St := { owner := none, ths := List.replicate n { todo := [], ctx := false } }

/-- `get_thread_specific` and `get_value`, lines 74-80 (nothing without a context). -/
def getCode (t : Nat) (ctx : Bool) : List Micro := if ctx then [.rd (.storage t)] else []

/-- `set_thread_specific`, `create_thread_context`, `set_value`, lines 140-148 and 82-87. -/
def setCode (t : Nat) (ctx : Bool) : List Micro :=
  (if ctx then [] else [.lock, .enlist, .unlock]) ++ [.rd (.storage t), .wr (.storage t)]

/-- `new_key`, lines 196-220. -/
def newCode : List Micro := [.lock, .wr .freed, .wr .table, .unlock]

/-- `delete_key`, lines 222-255. -/
def deleteCode : List Micro := [.lock, .wr .table, .visit, .wr .freed, .unlock]

/-- `destroy_thread_context`, lines 164-193: the table is read once for each of the `n` values. -/
def exitCode (t n : Nat) (ctx : Bool) : List Micro :=
  if ctx then [.wr (.storage t)] ++ List.replicate n (.rd .table) ++ [.lock, .delist, .unlock, .free t] else []

/-- Lines 237-241 for the context of thread `u`. -/
def visitOne (u : Nat) : List Micro := [.rd (.storage u), .wr (.storage u)]

/-- The threads that have a context in `m_thread_contexts` (line 125). -/
def listed (ths : List Th) : List Nat :=
  (List.range ths.length).filter fun u => match ths[u]? with | some th => th.ctx | none => false

/-- One access, or the call of a function (lines 74-87, 140-255). -/
def step : StepFn St (Nat × Act) Unit := fun s (t, a) =>
  match s.ths[t]? with
  | none => none
  | some th =>
    let put (th' : Th) : Option (St × List Unit) := some ({ s with ths := s.ths.set t th' }, [])
    match th.todo, a with
    | [], .get => put { th with todo := getCode t th.ctx }
    | [], .set => put { th with todo := setCode t th.ctx }
    | [], .newKey => put { th with todo := newCode }
    | [], .deleteKey => put { th with todo := deleteCode }
    | [], .exit n => put { th with todo := exitCode t n th.ctx }
    | .lock :: r, .go =>
      if s.owner = none then some ({ owner := some t, ths := s.ths.set t { th with todo := r } }, []) else none
    | .unlock :: r, .go => some ({ owner := none, ths := s.ths.set t { th with todo := r } }, [])
    | .rd _ :: r, .go => put { th with todo := r }
    | .wr _ :: r, .go => put { th with todo := r }
    | .enlist :: r, .go => put { todo := r, ctx := true }
    | .delist :: r, .go => put { todo := r, ctx := false }
    | .visit :: r, .go => put { th with todo := (listed s.ths).flatMap visitOne ++ r }
    | .free _ :: r, .go => put { th with todo := r }
    | _, _ => none

end Verif.TssRace
