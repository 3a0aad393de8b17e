import Verif.Base.LTS

/-!
# One-time initialisation of the TSS manager on Windows before Vista

Models `init_tss_once` (`src/tss_windows.cpp` lines 85-104, the variant without `InitOnceExecuteOnce`) and `init_tss` (52-72),
called by any number of threads at once, followed by the use of `tss_mgr` by the callers.

The constructor of the manager may throw and `TlsAlloc` may fail; both abort the process (lines 60-63, 67-68), after which
no step is possible.  The plain load in front of the loop reads the newest value (`go`) or the initial one (`stale`).
The variants with `InitOnceExecuteOnce` (lines 78-81) and `pthread_once` (`src/tss_pthread.cpp`) rest on the OS and are not
modelled.
-/

namespace Verif.TssOnce

/-- Where a thread is in `init_tss_once` (lines 85-104) and `init_tss` (52-72). -/
inductive PC
  | idle
  /-- line 87 -/
  | load
  /-- line 91 -/
  | cas
  /-- line 98, `new tss_manager()` (line 58) -/
  | construct
  /-- line 98, `TlsAlloc` (lines 66-68) -/
  | tls
  /-- line 99 -/
  | publish
  /-- back in the caller, about to use `tss_mgr` -/
  | ready
  deriving DecidableEq, Repr

/-- The variables of lines 41 and 43, and the threads. -/
structure St where
  /-- `init_tss_once_flag` (line 41) -/
  flag : Nat
  /-- `tss_mgr` (line 43), 0 is null -/
  mgr : Nat
  /-- the process was aborted -/
  aborted : Bool
  ths : List PC
  deriving DecidableEq, Repr

/-- What is observed of lines 87-103. -/
inductive Ev
  | began (t : Nat)
  | done (t p : Nat)
  | aborted (t : Nat)
  | proceeded (t p : Nat)
  deriving DecidableEq, Repr

/-- What happens next: a call of `init_tss_once` (lines 159, 171, 185, 199), the next action of lines 87-103, or an answer of the OS or
the allocator (lines 58, 66). -/
inductive Act
  | call
  | go
  | stale
  /-- the allocator yields address `p` -/
  | addr (p : Nat)
  | fault
  deriving DecidableEq, Repr

/-- Lines 41, 43. -/
def init (n : Nat) : St := { flag := 0, mgr := 0, aborted := false, ths := List.replicate n .idle }

/-- One atomic action of thread `t` (lines 87-103, 54-71). -/
def step : StepFn St (Nat × Act) Ev := fun s (t, a) =>
  if s.aborted then none else
  match s.ths[t]? with
  | none => none
  | some pc =>
    let goto (pc' : PC) (es : List Ev) : Option (St × List Ev) := some ({ s with ths := s.ths.set t pc' }, es)
    match pc, a with
    | .idle, .call => goto .load []
    -- line 87
    | .load, .go => if s.flag = 2 then goto .ready [] else goto .cas []
    | .load, .stale => goto .cas []
    | .cas, .go =>
      -- lines 96-98
      if s.flag = 0 then some ({ s with flag := 1, ths := s.ths.set t .construct }, [.began t])
      -- lines 92-93
      else if s.flag = 2 then goto .ready []
      -- lines 94-95
      else goto .cas []
    -- line 58
    | .construct, .addr p => if p = 0 then none else some ({ s with mgr := p, ths := s.ths.set t .tls }, [])
    -- lines 60-63
    | .construct, .fault => some ({ s with aborted := true }, [.aborted t])
    -- line 66
    | .tls, .go => goto .publish []
    -- lines 67-68
    | .tls, .fault => some ({ s with aborted := true }, [.aborted t])
    -- lines 99-100
    | .publish, .go => some ({ s with flag := 2, ths := s.ths.set t .ready }, [.done t s.mgr])
    | .ready, .go => goto .idle [.proceeded t s.mgr]
    | _, _ => none

end Verif.TssOnce
