import Verif.Spec.Effort
import Verif.Model.AutoEventFutex
import Verif.Model.ManualEventFutex
import Verif.Model.WinMutex
import Verif.Model.SpinMutex
import Verif.Model.SharedSpinMutex
import Verif.Model.AutoEventSem
import Verif.Model.Monitor
import Verif.Model.CvAny
import Verif.Model.CondVarPosix
import Verif.Model.WinCondVar
import Verif.Model.TimerInit
import Verif.Model.TssOnce

/-!
# Specification: the steps for which users or the environment are responsible (C96)
-/

namespace Verif.AutoFutex

/-- New calls, the users' own work, reading an outdated word, failing compare-exchanges without a reason, waking up without a reason. -/
def charged (s : St) : Nat × Act → Bool
  | (_, .call _) | (_, .doWork) | (_, .casFail _) | (_, .spurious) => true
  | (_, .load v) => v != s.word.val
  | _ => false

end Verif.AutoFutex

namespace Verif.ManualFutex

/-- New calls, the users' own work, reading an outdated word, waking up without a reason. -/
def charged (s : St) : Nat × Act → Bool
  | (_, .call _) | (_, .doWork) | (_, .spurious) => true
  | (_, .load v) => v != s.word.val
  | _ => false

end Verif.ManualFutex

namespace Verif.WinMutex

/-- New calls, the users' own work, reading an outdated word, failing compare-exchanges without a reason, a wait of the system that ends before the deadline. -/
def charged (s : St) : Nat × Act → Bool
  | (_, .call _) | (_, .callUnlock) | (_, .doWork) | (_, .fail _) | (_, .again) => true
  | (_, .load v) => v != s.word.val
  | _ => false

end Verif.WinMutex

namespace Verif.Spin

/-- Somebody owns the mutex. -/
def taken (s : St) : Bool := s.ths.any Th.owns

/-- New calls, the users' own work, reading an outdated value, and all steps of `lock()` while the mutex is owned. -/
def charged (s : St) : Nat × Act → Bool
  | (t, .go v) =>
    match s.ths[t]? with
    | some ⟨.lockSpin, _⟩ => v != s.word.val || taken s
    | some ⟨.lockXchg, _⟩ => taken s
    | _ => false
  | _ => true

end Verif.Spin

namespace Verif.SharedSpin

/-- Somebody owns the mutex exclusively. -/
def takenExcl (s : St) : Bool := s.ths.any fun th => match th.pc with | .owner | .unlocking => true | _ => false

/-- Somebody owns the mutex, exclusively or shared. -/
def taken (s : St) : Bool :=
  s.ths.any fun th => match th.pc with | .owner | .unlocking | .sharer | .sharedUnlocking => true | _ => false

/-- Reading an outdated word. -/
def outdated (s : St) : Act → Bool
  | .load v => v != s.word.val
  | _ => false

/-- New calls, the users' own work, reading an outdated word, failing compare-exchanges without a reason, all steps of `lock()` while the mutex is owned, and all
steps of `lock_shared()` while it is owned exclusively. -/
def charged (s : St) : Nat × Act → Bool
  | (t, a) =>
    match a with
    | .go | .load _ =>
      match s.ths[t]? with
      | some ⟨.lockSpin, _⟩ | some ⟨.lockCas, _⟩ => outdated s a || taken s
      | some ⟨.sharedSpin, _⟩ | some ⟨.sharedLoad, _⟩ | some ⟨.sharedCas _, _⟩ => outdated s a || takenExcl s
      | _ => outdated s a
    | _ => true

end Verif.SharedSpin

namespace Verif.AutoSem

/-- New calls, and failing compare-exchanges without a reason. -/
def charged (_ : St) : Nat × Act → Bool
  | (_, .call _) | (_, .spurious) => true
  | _ => false

end Verif.AutoSem

namespace Verif.Monitor

/-- New calls, waking up without a reason, waits of the system that end too early. -/
def charged {D S : Type} (_ : St D S) : Nat × Act S → Bool
  | (_, .call _) | (_, .spurious) | (_, .early) => true
  | _ => false

end Verif.Monitor

namespace Verif.CvAny

/-- The steps of the users, waking up without a reason, and finding that the user's clock has not reached the deadline. -/
def charged (_ : St) : Nat × Act → Bool
  | (_, .lockUser) | (_, .unlockUser) | (_, .wait _) | (_, .notify _) | (_, .spurious) | (_, .again) => true
  | _ => false

end Verif.CvAny

namespace Verif.CondVarPosix

/-- The steps of the users, waking up without a reason, and finding that the user's clock has not reached the deadline. -/
def charged {D : Type} (_ : St D) : Nat × Act D → Bool
  | (_, .lock) | (_, .unlock) | (_, .update _) | (_, .wait _ _) | (_, .notifyOne _) | (_, .notifyAll)
  | (_, .spurious) | (_, .interrupt) | (_, .early) => true
  | _ => false

end Verif.CondVarPosix

namespace Verif.WinCv

/-- The steps of the users. -/
def charged (_ : St) : Nat × Act → Bool
  | (_, .go) | (_, .timeout) | (_, .fail) => false
  | _ => true

end Verif.WinCv

namespace Verif.TimerInit

/-- Some thread initialises module `m`. -/
def underway (s : St) (m : Nat) : Bool :=
  s.ths.any fun pc =>
    match pc with
    | .idle | .load _ | .cas _ | .ready _ => false
    | pc => pc.mod == some m

/-- New calls, and waiting for another thread that initialises the module. -/
def charged (s : St) : Nat × Act → Bool
  | (_, .call _) => true
  | (t, .go) =>
    match s.ths[t]? with
    | some (.cas m) => underway s m
    | _ => false
  | _ => false

end Verif.TimerInit

namespace Verif.TssOnce

/-- Some thread constructs the manager. -/
def underway (s : St) : Bool := s.ths.any fun pc => pc == .construct || pc == .tls || pc == .publish

/-- New calls, and waiting for another thread that constructs the manager. -/
def charged (s : St) : Nat × Act → Bool
  | (_, .call) => true
  | (t, .go) =>
    match s.ths[t]? with
    | some .cas => underway s
    | _ => false
  | _ => false

end Verif.TssOnce
