import Verif.Model.Interrupted

namespace Verif.Interrupted

/-- What a definite answer of the system means: success, or the one failure the function is meant to report, or an error. -/
def Fn.expectedFailure : Fn → Option Errno
  | .mutexTryLock => some .ebusy
  | .mutexTimedLock | .condTimedWait | .semTimedWait => some .etimedout
  | .semTryWait => some .eagain
  | .mutexLock | .mutexUnlock | .condWait | .semWait => none

/-- Errors are thrown, except by `unlock`, which is `noexcept`, and by the semaphore, whose only error is misuse. -/
def Fn.throwsErrors : Fn → Bool
  | .mutexLock | .mutexTryLock | .mutexTimedLock | .condWait | .condTimedWait => true
  | .mutexUnlock | .semWait | .semTryWait | .semTimedWait => false

/-- `o` reports the answer `e`. -/
inductive Reports (f : Fn) (e : Errno) : Outcome → Prop
  | success (h : e = .zero) : Reports f e .success
  | failure (h : f.expectedFailure = some e) : Reports f e .failure
  | threw (h0 : e ≠ .zero) (h : f.expectedFailure ≠ some e) (ht : f.throwsErrors = true) :
    Reports f e (.threw e)
  | assertion (h0 : e ≠ .zero) (h : f.expectedFailure ≠ some e) (ht : f.throwsErrors = false) :
    Reports f e .assertion

end Verif.Interrupted
