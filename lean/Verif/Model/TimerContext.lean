import Verif.Base.LTS

/-!
# The waitable timer of a thread

Models `thread_local_context` (`include/boost/sync/detail/waitable_timer.hpp` lines 82-114), `create_thread_local_context`
(245-286) and the rest of `get_waitable_timer` after the one-time initialisation (308-317) for one thread, which calls it
any number of times and ends at some point, whereupon the registered wait calls `thread_local_context::destroy` (107-110).

Handles and addresses are natural numbers, 0 is null; the OS chooses any that is not in use.  Every OS call and the
allocation may fail.  Contexts of other modules built with a different Boost version (lines 314-315) are given by the
version found in the context.
-/

namespace Verif.TimerContext

/-- The kinds of resources (lines 84-87, 247). -/
inductive Res
  /-- the `thread_local_context` object -/
  | mem
  /-- the duplicated handle of the thread -/
  | thread
  /-- the registered wait -/
  | wait
  /-- the waitable timer -/
  | timer
  deriving DecidableEq, Repr

/-- `thread_local_context` (lines 84-87) and its address. -/
structure Ctx where
  addr : Nat
  version : Nat
  timer : Nat
  thread : Nat
  wait : Nat
  deriving DecidableEq, Repr

/-- What the OS and the allocator answer to lines 247, 249, 261, 272 and 275: an address or handle, or failure. -/
structure Os where
  addr : Option Nat
  thread : Option Nat
  wait : Option Nat
  timer : Option Nat
  tlsSet : Bool
  deriving DecidableEq, Repr

/-- What one thread has allocated (lines 247-272) and its TLS slot (line 275). -/
structure St where
  /-- what is allocated or open -/
  opened : List (Res × Nat)
  /-- the value of the TLS slot -/
  tls : Option Ctx
  /-- the thread has ended -/
  ended : Bool
  deriving DecidableEq, Repr

/-- What is acquired (lines 247-272), released (97-105, 109, 283), returned (317) or thrown (247, 284, 315). -/
inductive Ev
  | acquired (r : Res) (h : Nat)
  | released (r : Res) (h : Nat)
  /-- `get_waitable_timer` returned this handle -/
  | returned (h : Nat)
  /-- `std::bad_alloc` or `resource_error` -/
  | threw
  /-- `std::logic_error` of line 315 -/
  | versions
  deriving DecidableEq, Repr

/-- The destructor and `delete` (lines 97-105, 109, 283). -/
def destroy (c : Ctx) : List Ev :=
  (if c.wait ≠ 0 then [.released .wait c.wait] else []) ++
  (if c.thread ≠ 0 then [.released .thread c.thread] else []) ++
  (if c.timer ≠ 0 then [.released .timer c.timer] else []) ++
  [.released .mem c.addr]

/-- Lines 89-95. -/
def ctx0 (version a : Nat) : Ctx := { addr := a, version := version, timer := 0, thread := 0, wait := 0 }

/-- Lines 245-286: the context if it was created, and what was acquired and released. -/
def create (version : Nat) (os : Os) : Option Ctx × List Ev :=
  match os.addr with
  -- line 247
  | none => (none, [])
  | some a =>
    let c := ctx0 version a
    match os.thread with
    -- lines 249-259, 283
    | none => (none, .acquired .mem a :: destroy c)
    | some h =>
      let c := { c with thread := h }
      match os.wait with
      -- lines 261-270, 283
      | none => (none, [.acquired .mem a, .acquired .thread h] ++ destroy c)
      | some w =>
        let c := { c with wait := w }
        match os.timer with
        -- lines 272-273, 283
        | none => (none, [.acquired .mem a, .acquired .thread h, .acquired .wait w] ++ destroy c)
        | some tm =>
          let c := { c with timer := tm }
          let es : List Ev := [.acquired .mem a, .acquired .thread h, .acquired .wait w, .acquired .timer tm]
          -- lines 275-277, 283
          if os.tlsSet then (some c, es) else (none, es ++ destroy c)

/-- What is open after an event (lines 97-105, 247-272, 283). -/
def opening (o : List (Res × Nat)) : Ev → List (Res × Nat)
  | .acquired r h => (r, h) :: o
  | .released r h => o.erase (r, h)
  | _ => o

/-- The OS and the allocator (lines 247, 249, 261, 272) hand out nothing that is in use, and no null. -/
def Os.fresh (os : Os) (o : List (Res × Nat)) : Bool :=
  [(Res.mem, os.addr), (.thread, os.thread), (.wait, os.wait), (.timer, os.timer)].all fun (r, x) =>
    match x with
    | none => true
    | some h => h != 0 && !o.contains (r, h)

/-- What happens next: a call of `get_waitable_timer` (line 301) or the end of the thread (line 107). -/
inductive Act
  /-- `get_waitable_timer` called from a module with Boost version `v` -/
  | get (v : Nat) (os : Os)
  /-- the thread ends and the registered wait fires -/
  | exit
  deriving DecidableEq, Repr

/-- The thread has not called `get_waitable_timer` (line 301) yet. -/
def init : St := { opened := [], tls := none, ended := false }

/-- Lines 308-317, and line 109 at the end of the thread. -/
def step : StepFn St Act Ev := fun s a =>
  if s.ended then none else
  match a with
  | .get v os =>
    match s.tls with
    | some c =>
      -- lines 314-317
      if c.version = v then some (s, [.returned c.timer]) else some (s, [.versions])
    | none =>
      if os.fresh s.opened then
        -- lines 310-311
        match create v os with
        | (none, es) => some ({ s with opened := es.foldl opening s.opened }, es ++ [.threw])
        | (some c, es) => some ({ s with opened := es.foldl opening s.opened, tls := some c }, es ++ [.returned c.timer])
      else none
  | .exit =>
    match s.tls with
    | some c => some ({ s with opened := (destroy c).foldl opening s.opened, ended := true }, destroy c)
    | none => some ({ s with ended := true }, [])

end Verif.TimerContext
