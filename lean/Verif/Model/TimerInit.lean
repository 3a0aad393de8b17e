import Verif.Base.LTS

/-!
# One-time initialisation of the waitable timer state

Models `waitable_timer_state::init` (`include/boost/sync/detail/waitable_timer.hpp` lines 123-242), the check in front of it
in `get_waitable_timer` (305-309) and `destroy` (289-297).

There are any number of modules (executable and DLLs), each with its own `waitable_timer_state` (the variable
`weak_linkage< waitable_timer_state >::value` is one per module), and any number of threads, any of which may call
`get_waitable_timer` of any module.  The modules share one kernel: the named semaphore of the process (its count, or
absence) and the set of TLS slots in use.

Every call of the OS may fail (`fault`).  The OS chooses any TLS slot that is not in use.  The plain load of line 305 reads
the newest value (`go`) or the initial one (`stale`).  Simplifications: the name of the semaphore is modelled in
`Verif.SemName` and is here just the one semaphore of the process; somebody else's semaphore of that name, unloading of
modules and failure of `std::atexit` are not modelled; storing `tls_key_holder` happens together with the OS call that
yields the handle and `std::atexit` together with the call before it (no other thread looks at either); `tls_key` is read
by line 309 with its newest value (the code relies on the platform's ordering for the plain load of line 305).
-/

namespace Verif.TimerInit

/-- Where a thread is in `get_waitable_timer` (305-309) or `init` (123-242); `m` is the module whose state it works on. -/
inductive PC
  /-- outside `get_waitable_timer` -/
  | idle
  /-- line 305 -/
  | load (m : Nat)
  /-- line 127 -/
  | cas (m : Nat)
  /-- line 166 -/
  | openSem (m : Nat)
  /-- line 176 -/
  | alloc (m : Nat)
  /-- line 184 -/
  | create (m k : Nat)
  /-- line 200 -/
  | free (m k : Nat)
  /-- lines 217-222 -/
  | query (m : Nat)
  /-- line 232 -/
  | alloc2 (m : Nat)
  /-- lines 193, 204, 225, 240 -/
  | setKey (m k : Nat)
  /-- lines 194, 206, 226, 241 -/
  | publish (m : Nat)
  /-- lines 180-181 and 236-237 -/
  | fail (m : Nat)
  /-- line 309 -/
  | ready (m : Nat)
  deriving DecidableEq, Repr

/-- `waitable_timer_state` of one module (lines 77-80). -/
structure Mod where
  /-- `initialized`: 0 `st_uninitialized`, 1 `st_in_progress`, 2 `st_initialized` (lines 70-75, 78) -/
  flag : Nat
  /-- `tls_key` (line 79) -/
  key : Nat
  /-- whether `tls_key_holder` is not null (line 80) -/
  holder : Bool
  /-- the handles of the semaphore opened for this module and not closed -/
  handles : Nat
  /-- how often `destroy` is registered with `std::atexit` (lines 205, 212) -/
  atexit : Nat
  deriving DecidableEq, Repr

/-- The state of each module (lines 77-80), the named semaphore (lines 166, 184), the TLS slots (lines 176, 232) and the threads. -/
structure St where
  mods : List Mod
  /-- the count of the named semaphore if it exists -/
  sem : Option Nat
  /-- the TLS slots in use by this code -/
  live : List Nat
  ths : List PC
  deriving DecidableEq, Repr

/-- What is observed of `init` and `get_waitable_timer` (lines 123-242, 301-309). -/
inductive Ev
  /-- line 127 switched to `st_in_progress` -/
  | began (t m : Nat)
  /-- lines 194, 206, 226, 241 with this `tls_key` -/
  | done (t m k : Nat)
  /-- lines 181, 237 -/
  | threw (t m : Nat)
  /-- line 309 with this `tls_key` -/
  | proceeded (t m k : Nat)
  deriving DecidableEq, Repr

/-- What happens next: a call of `get_waitable_timer` (line 301), the next action of lines 125-241 and 305-309, or an answer of the OS. -/
inductive Act
  /-- the thread calls `get_waitable_timer` of module `m` -/
  | call (m : Nat)
  | go
  | stale
  /-- the OS call fails -/
  | fault
  /-- `TlsAlloc` yields slot `k` -/
  | slot (k : Nat)
  deriving DecidableEq, Repr

/-- All of it is zero-initialised (line 77). -/
def mod0 : Mod := { flag := 0, key := 0, holder := false, handles := 0, atexit := 0 }

/-- `c` modules, zero-initialised (line 77), `n` threads, no semaphore (line 166). -/
def init (c n : Nat) : St :=
  { mods := List.replicate c mod0, sem := none, live := [], ths := List.replicate n .idle }

/-- A handle is obtained (lines 166, 184) and `destroy` registered (lines 205, 212). -/
def Mod.hold (d : Mod) : Mod := { d with holder := true, handles := d.handles + 1, atexit := d.atexit + 1 }

/-- `tls_key_holder` becomes null because line 166 or 184 failed. -/
def Mod.noHold (d : Mod) : Mod := { d with holder := false }

/-- `destroy` (lines 289-297). -/
def Mod.destroy (d : Mod) : Mod := if d.holder then { d with holder := false, handles := d.handles - 1 } else d

/-- The handlers run at exit: `destroy` (289-297) as often as registered (lines 205, 212). -/
def Mod.atExit (d : Mod) : Mod := Nat.repeat Mod.destroy d.atexit d

/-- The module a thread at `pc` works on, if any (lines 303-309, 123-242). -/
def PC.mod : PC → Option Nat
  | .idle => none
  | .load m | .cas m | .openSem m | .alloc m | .create m _ | .free m _ | .query m | .alloc2 m | .setKey m _
  | .publish m | .fail m | .ready m => some m

/-- One atomic action of thread `t` (lines 305-309 and 125-241). -/
def step : StepFn St (Nat × Act) Ev := fun s (t, a) =>
  match s.ths[t]? with
  | none => none
  | some pc =>
    let goto (pc' : PC) (es : List Ev) : Option (St × List Ev) := some ({ s with ths := s.ths.set t pc' }, es)
    match pc, a with
    | .idle, .call m => if m < s.mods.length then goto (.load m) [] else none
    | .load m, a =>
      match s.mods[m]?, a with
      -- lines 305-306
      | some d, .go => if d.flag = 2 then goto (.ready m) [] else goto (.cas m) []
      | some _, .stale => goto (.cas m) []
      | _, _ => none
    | .cas m, .go =>
      match s.mods[m]? with
      | some d =>
        -- lines 138-139
        if d.flag = 0 then
          some ({ s with mods := s.mods.set m { d with flag := 1 }, ths := s.ths.set t (.openSem m) }, [.began t m])
        -- lines 133-137
        else if d.flag = 2 then goto (.ready m) []
        -- lines 128-132
        else goto (.cas m) []
      | none => none
    | .openSem m, a =>
      match s.mods[m]?, s.sem, a with
      -- lines 166-171, 212
      | some d, some _, .go => some ({ s with mods := s.mods.set m d.hold, ths := s.ths.set t (.query m) }, [])
      -- line 173
      | some d, none, .go => some ({ s with mods := s.mods.set m d.noHold, ths := s.ths.set t (.alloc m) }, [])
      | some d, _, .fault => some ({ s with mods := s.mods.set m d.noHold, ths := s.ths.set t (.alloc m) }, [])
      | _, _, _ => none
    -- line 176
    | .alloc m, .slot k =>
      if k ∈ s.live then none else some ({ s with live := k :: s.live, ths := s.ths.set t (.create m k) }, [])
    -- line 177
    | .alloc m, .fault => goto (.fail m) []
    | .create m k, a =>
      match s.mods[m]?, s.sem, a with
      -- lines 202-205
      | some d, none, .go =>
        some ({ s with mods := s.mods.set m d.hold, sem := some k, ths := s.ths.set t (.setKey m k) }, [])
      -- lines 197, 212
      | some d, some _, .go => some ({ s with mods := s.mods.set m d.hold, ths := s.ths.set t (.free m k) }, [])
      -- line 190
      | some d, _, .fault => some ({ s with mods := s.mods.set m d.noHold, ths := s.ths.set t (.setKey m k) }, [])
      | _, _, _ => none
    -- line 200
    | .free m k, .go => some ({ s with live := s.live.erase k, ths := s.ths.set t (.query m) }, [])
    -- lines 222-225
    | .query m, .go =>
      match s.sem with
      | some k => goto (.setKey m k) []
      | none => none
    -- lines 219, 223
    | .query m, .fault => goto (.alloc2 m) []
    -- line 232
    | .alloc2 m, .slot k =>
      if k ∈ s.live then none else some ({ s with live := k :: s.live, ths := s.ths.set t (.setKey m k) }, [])
    -- line 233
    | .alloc2 m, .fault => goto (.fail m) []
    -- lines 193, 204, 225, 240
    | .setKey m k, .go =>
      match s.mods[m]? with
      | some d => some ({ s with mods := s.mods.set m { d with key := k }, ths := s.ths.set t (.publish m) }, [])
      | none => none
    -- lines 194-195, 206-207, 226-227, 241
    | .publish m, .go =>
      match s.mods[m]? with
      | some d =>
        some ({ s with mods := s.mods.set m { d with flag := 2 }, ths := s.ths.set t (.ready m) }, [.done t m d.key])
      | none => none
    -- lines 180-181, 236-237
    | .fail m, .go =>
      match s.mods[m]? with
      | some d => some ({ s with mods := s.mods.set m { d with flag := 0 }, ths := s.ths.set t .idle }, [.threw t m])
      | none => none
    -- line 309
    | .ready m, .go =>
      match s.mods[m]? with
      | some d => goto .idle [.proceeded t m d.key]
      | none => none
    | _, _ => none

end Verif.TimerInit
