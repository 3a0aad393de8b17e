import Verif.Model.WaitLoop

/-! # Time spent blocked -/

namespace Verif.WaitLoop

/-- Total time blocked. -/
def blocked : List Ev → Int
  | [] => 0
  | .wait _ e _ :: tr => e + blocked tr
  | _ :: tr => blocked tr

/-- Total time of the waits that timed out. -/
def waitedOut : List Ev → Int
  | [] => 0
  | .wait r _ true :: tr => r + waitedOut tr
  | _ :: tr => waitedOut tr

/-- The number of waits that timed out. -/
def timeouts : List Ev → Nat
  | [] => 0
  | .wait _ _ true :: tr => timeouts tr + 1
  | _ :: tr => timeouts tr

/-- The number of waits that did not time out. -/
def wakeups : List Ev → Nat
  | [] => 0
  | .wait _ _ false :: tr => wakeups tr + 1
  | _ :: tr => wakeups tr

/-- The time requested, at least none. -/
def atLeast0 (T : Int) : Int := if T < 0 then 0 else T

/-- `INFINITE` of Windows as a `DWORD`. -/
def INFINITE : Int := 0xFFFFFFFF

end Verif.WaitLoop
