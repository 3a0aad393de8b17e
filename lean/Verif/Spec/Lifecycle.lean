import Verif.Model.Lifecycle

/-! # The OS before a construction -/

namespace Verif.Lifecycle

/-- A consistent OS: the objects that exist are different, new ones get numbers not in use, nothing was destroyed twice. -/
structure Ok (os : OS) : Prop where
  lt : ∀ o ∈ os.live, o.id < os.next
  nodup : os.live.Nodup
  good : os.bad = false

/-- What an object of each class needs of the OS to do its work, in any order. -/
def needs : Name → List Kind
  | .mutexPosix | .timedMutexPosix => [.mutex]
  | .condVarPosix => [.cond]
  | .timedMutexEmulation | .condVarAny | .semaphoreEmulation | .eventEmulation => [.cond, .mutex]
  | .semaphorePosix | .eventSemPosix => [.sem]
  | .semaphoreDispatch | .eventSemDispatch => [.dispatch]
  | .semaphoreMach | .eventSemMach => [.mach]
  | .semaphoreWindows => [.winSem]
  | .eventWindows => [.winEvent]

end Verif.Lifecycle
