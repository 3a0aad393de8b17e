import Verif.Spec.Endless
import Verif.Spec.AloneFair
import Verif.Model.Monitor

/-!
# Calls in progress, free mutexes, steps that the scheduler owes a thread (C114)
-/

namespace Verif.Spin

/-- The thread is in `lock()`. -/
def InLock (t : Nat) (s : St) : Prop := ∃ th, s.ths[t]? = some th ∧ (th.pc = .lockSpin ∨ th.pc = .lockXchg)

/-- Nobody owns the mutex. -/
def Free (s : St) : Prop := ∀ th ∈ s.ths, th.owns = false

/-- The next access of the code. -/
def Next (s : St) : Act → Prop
  | .go b => b = s.word.val
  | _ => False

end Verif.Spin

namespace Verif.SharedSpin

/-- The thread is in `lock()`. -/
def InLock (t : Nat) (s : St) : Prop := ∃ th, s.ths[t]? = some th ∧ (th.pc = .lockSpin ∨ th.pc = .lockCas)

/-- The thread is in `lock_shared()`. -/
def InShared (t : Nat) (s : St) : Prop :=
  ∃ th, s.ths[t]? = some th ∧ (th.pc = .sharedSpin ∨ th.pc = .sharedLoad ∨ ∃ c, th.pc = .sharedCas c)

/-- Nobody owns the mutex in any mode. -/
def Free (s : St) : Prop :=
  ∀ th ∈ s.ths, th.pc ≠ .owner ∧ th.pc ≠ .unlocking ∧ th.pc ≠ .sharer ∧ th.pc ≠ .sharedUnlocking

/-- The next access of the code. -/
def Next (s : St) : Act → Prop
  | .go => True
  | .load v => v = s.word.val
  | _ => False

/-- A thread other than `t` acquires the mutex in some mode. -/
def OtherTakes (t : Nat) (es : List Ev) : Prop :=
  ∃ u, u ≠ t ∧ (.locked u ∈ es ∨ .tried u true ∈ es ∨ .lockedShared u ∈ es ∨ .triedShared u true ∈ es)

end Verif.SharedSpin

namespace Verif.WinMutex

/-- The thread is in `lock()`. -/
def InLock (t : Nat) (s : St) : Prop :=
  ∃ th, s.ths[t]? = some th ∧ (th.pc = .tryBts .lock ∨ th.pc = .load .lock ∨ ∃ w, th.pc = .mark .lock w ∨ th.pc = .evWait .lock w ∨ th.pc = .clr .lock w)

/-- The next access of the code. -/
def Next (_ : St) : Act → Prop
  | .go => True
  | _ => False

/-- Nobody calls a lock function, loads read the newest value, compare-exchanges do not fail without a reason, and no timed lock begins anew after a timeout of the
system; calls may fail and time out, and owners may unlock. -/
def Calm (s : St) : Act → Prop
  | .call _ | .fail _ | .again => False
  | .load v => v = s.word.val
  | _ => True

end Verif.WinMutex

namespace Verif.AutoFutex

/-- The places of `wait()`. -/
def waitPlace : PC → Bool
  | .tryLoad .wait | .tryLoop .wait _ | .add .wait | .waitTop .wait _ | .sleepCall .wait _ | .asleep .wait | .reload .wait | .cas .wait _ => true
  | _ => false

/-- The thread is in `wait()`. -/
def InWait (t : Nat) (s : St) : Prop := ∃ th, s.ths[t]? = some th ∧ waitPlace th.pc = true

/-- The next access of the code; `futex_signal` wakes whom the system chooses. -/
def Next (s : St) : Act → Prop
  | .go | .wake _ | .wakeNone => True
  | .load v => v = s.word.val
  | _ => False

/-- Only `post()` is called, loads read the newest value, and compare-exchanges do not fail without a reason; timed waits may time out, and the system may wake threads
without a reason. -/
def Calm (s : St) : Act → Prop
  | .call op => op = .post
  | .load v => v = s.word.val
  | .casFail _ => False
  | _ => True

end Verif.AutoFutex

namespace Verif.ManualFutex

/-- The places of `wait()`. -/
def inWait : PC → Bool
  | .tryLoad .wait | .add .wait | .sleepCall .wait _ _ | .asleep .wait _ | .reload .wait _ | .sub .wait => true
  | _ => false

/-- The thread is in `wait()`. -/
def InWait (t : Nat) (s : St) : Prop := ∃ th, s.ths[t]? = some th ∧ inWait th.pc = true

/-- The next access of the code. -/
def Next (s : St) : Act → Prop
  | .go => True
  | .load v => v = s.word.val
  | _ => False

/-- Loads read the newest value. -/
def Newest (s : St) : Act → Prop
  | .load v => v = s.word.val
  | _ => True

end Verif.ManualFutex

namespace Verif.Monitor

open Verif.Atomic (Kind Op Ev)

variable {D S : Type}

/-- The places of `wait()` (a wait without a timeout is never told of one). -/
def inWait : PC S → Bool
  | .want .wait | .inside .wait | .asleep .wait | .woken .wait false | .early .wait | .taking .wait _ | .leave (.acq .wait) _ => true
  | _ => false

/-- The thread is in `wait()`. -/
def InWait (t : Nat) (s : St D S) : Prop := ∃ pc, s.ths[t]? = some pc ∧ inWait pc = true

/-- The next access of the code; a notification wakes whom the system chooses. -/
def Next (_ : St D S) : Act S → Prop
  | .go | .wake _ _ => True
  | _ => False

/-- `wait()` returns or throws. -/
def WaitEnds (t : Nat) (es : List (Ev S)) : Prop := (∃ b, .ret t (.acq .wait) b ∈ es) ∨ .threw t (.acq .wait) ∈ es

end Verif.Monitor
