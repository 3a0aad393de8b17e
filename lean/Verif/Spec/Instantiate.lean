import Verif.Model.Instantiate

/-!
# Which calls the documentation says compile

"Timed operations accept any time point or duration of the supported libraries" (semaphore.hpp, timed_mutex.hpp 73-118, manual_reset_event.hpp 84-132, sync.qbk 48), provided the
support header is included.  Stated without the declarations of the model.
-/

namespace Verif.Instantiate

/-- The user has included the header for the type. -/
def Supported (h : Headers) : Time → Prop
  | .duration .std _ | .point .std .. => h.stdChrono = true
  | .duration .boost _ | .point .boost .. => h.boostChrono = true
  | .dateTimeDuration | .dateTimePoint => h.dateTime = true
  | .timespec => h.posixTime = true
  | .other => False

/-- Durations. -/
def IsDuration : Time → Prop
  | .duration .. | .dateTimeDuration => True
  | _ => False

/-- Time points. -/
def IsPoint : Time → Prop
  | .point .. | .dateTimePoint | .timespec => True
  | _ => False

/-- What is given to the functions of the interface: `…_for` takes durations, `…_until` time points, the others both. -/
def Fits : Fn → Time → Prop
  | .for_, t | .forPred, t => IsDuration t
  | .until_, t | .untilPred, t => IsPoint t
  | .priv, _ => False
  | _, t => IsDuration t ∨ IsPoint t

/-- Condition variables. -/
def IsCv : Cls → Prop
  | .cvPosix | .cvWindows | .cvAnyGeneric | .cvAnyWindows => True
  | _ => False

/-- The public classes. -/
def Public : Cls → Prop
  | .basicEventWindows | .basicSemMach | .basicCvWindows => False
  | _ => True

/-- The functions of the public classes: condition variables also take a predicate, a `unique_lock` can be constructed with a time. -/
def Offers (c : Cls) : Fn → Prop
  | .timed | .for_ | .until_ => True
  | .timedPred | .forPred | .untilPred => IsCv c
  | .construct => ∃ w, c = .uniqueLock w
  | .priv => False

/-- A tick of `a` is a whole number of ticks of `b`. -/
def Multiple (a b : Dur) : Prop := ∃ k : Nat, a.num * b.den = k * (b.num * a.den)

/-- The clock's own time points convert to time points with duration `d` without loss. -/
def Lossless (native d : Dur) : Prop := d.float = true ∨ (native.float = false ∧ Multiple native d)

/-- A time point of a clock other than `system_clock`. -/
def OtherClock (t : Time) : Prop := ∃ l native d, t = .point l false native d

end Verif.Instantiate
