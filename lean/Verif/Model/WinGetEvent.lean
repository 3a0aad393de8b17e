import Verif.Base.LTS

/-!
# Lazy creation of the event of the Windows mutex

Models `basic_mutex::get_event` (`include/boost/sync/detail/mutexes/basic_mutex_windows.hpp` lines 100-126) and the
destructor (69-74), called by any number of threads at once.

Handles are natural numbers, 0 is the null handle.  The OS hands out any handle that is not open at the moment, so values
of closed handles may be reused.  Creation may fail (`osFail`).  The load of line 102 is modelled as reading the newest
value (`go`) or, being a load, the initial null (`stale`).
-/

namespace Verif.WinGetEvent

/-- Where a thread is in `get_event` (lines 100-126). -/
inductive PC
  | idle
  /-- line 102 -/
  | load
  /-- line 106 -/
  | create
  /-- line 111 -/
  | cas (h : Nat)
  /-- lines 114-115: the own handle to be closed and the one to be returned -/
  | close (h old : Nat)
  deriving DecidableEq, Repr

/-- `m_event`, the handles open, and the threads (lines 62, 100-126). -/
structure St where
  /-- `m_event` (line 62) -/
  event : Nat
  /-- the handles that are open -/
  opened : List Nat
  ths : List PC
  deriving DecidableEq, Repr

/-- What is observed of `get_event` (lines 106, 114, 115, 121, 125). -/
inductive Ev
  | created (t h : Nat)
  | closed (t h : Nat)
  | returned (t h : Nat)
  | threw (t : Nat)
  deriving DecidableEq, Repr

/-- What happens next: a call of `get_event` (lines 90, 166), the next access of lines 102-125, an answer of the OS (line 106). -/
inductive Act
  | call
  | go
  | stale
  /-- the OS chooses the handle -/
  | create (h : Nat)
  | osFail
  deriving DecidableEq, Repr

/-- Line 65. -/
def init (n : Nat) : St := { event := 0, opened := [], ths := List.replicate n .idle }

/-- One atomic action of thread `t` inside `get_event` (lines 102-125). -/
def step : StepFn St (Nat × Act) Ev := fun s (t, a) =>
  match s.ths[t]? with
  | none => none
  | some pc =>
    let goto (pc' : PC) (es : List Ev) : Option (St × List Ev) := some ({ s with ths := s.ths.set t pc' }, es)
    match pc, a with
    | .idle, .call => goto .load []
    -- lines 102-104, 125
    | .load, .go => if s.event = 0 then goto .create [] else goto .idle [.returned t s.event]
    | .load, .stale => goto .create []
    -- lines 106-109
    | .create, .create h =>
      if h = 0 ∨ h ∈ s.opened then none
      else some ({ s with opened := h :: s.opened, ths := s.ths.set t (.cas h) }, [.created t h])
    -- lines 118-122
    | .create, .osFail => goto .idle [.threw t]
    -- lines 111-113, 125
    | .cas h, .go =>
      if s.event = 0 then some ({ s with event := h, ths := s.ths.set t .idle }, [.returned t h])
      else goto (.close h s.event) []
    -- lines 114-115
    | .close h old, .go =>
      some ({ s with opened := s.opened.erase h, ths := s.ths.set t .idle }, [.closed t h, .returned t old])
    | _, _ => none

/-- The destructor, lines 69-74: the handles that remain open. -/
def destroy (s : St) : List Nat := if s.event = 0 then s.opened else s.opened.erase s.event

end Verif.WinGetEvent
