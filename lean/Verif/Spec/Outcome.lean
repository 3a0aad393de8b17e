import Verif.Spec.Failures

/-!
# Specification: what results mean, and which locks are owned afterwards

C94: a function that waits or locks succeeds if and only if one call of the system has acquired the object.  C95: the mutex of an emulation protects
everything the emulation does, and is given back; a wait on a condition variable gives the lock back to its user.  Independent of the functions.
-/

namespace Verif.Spec.Outcome

open Verif.OsCall Verif.Spec.Failures

/-! ## C94 -/

/-- The calls that lock the mutex, take one from the count of the semaphore or reset the auto-reset event. -/
def acquires (c : Call) : Bool :=
  match c.api with
  | .pthread_mutex_lock | .pthread_mutex_trylock | .pthread_mutex_timedlock
  | .sem_wait | .sem_trywait | .sem_timedwait
  | .waitInfinite _ | .waitFor _ _ | .WaitForMultipleObjects _
  | .semaphore_wait | .semaphore_timedwait | .dispatch_semaphore_wait => c.ans.res == 0
  | _ => false

/-- The calls that say that the object could not be had in time. -/
def unavailable (c : Call) : Bool :=
  match c.api with
  | .pthread_mutex_trylock => c.ans.res == 16
  | .pthread_mutex_timedlock | .pthread_cond_timedwait _ => c.ans.res == 110
  | .sem_trywait => c.ans.res != 0 && c.ans.err == 11
  | .sem_timedwait => c.ans.res != 0 && c.ans.err == 110
  | .waitFor _ _ => c.ans.res == 0x102
  | .WaitForMultipleObjects _ => c.ans.res == 1
  | .semaphore_timedwait => c.ans.res == 49
  | .dispatch_semaphore_wait => c.ans.res != 0
  | _ => false

/-- The user's clock says that the time is over. -/
def expired (c : Call) : Bool := c.api == .mem && c.ans.res == 0

/-- The function has acquired the object exactly once if it returns a value with `ok`, not at all if it returns another value, throws or is still waiting. -/
def Acquired {α : Type} (ok : α → Bool) (log : List Call) : Out α → Prop
  | .ret a => log.countP acquires = if ok a then 1 else 0
  | _ => log.countP acquires = 0

/-- In addition, it says "no" only when the system said so (`why`). -/
def AcquiredOr (why : Call → Bool) (log : List Call) : Out Bool → Prop
  | .ret true => log.countP acquires = 1
  | .ret false => log.countP acquires = 0 ∧ ∃ c ∈ log, why c = true
  | _ => log.countP acquires = 0

/-- A timed wait or lock fails only when a call has said that the time is over. -/
def InTime (why : Call → Bool) (log : List Call) : Out Bool → Prop
  | .ret false => ∃ c ∈ log, why c = true
  | _ => True

/-- A timed wait that ends before its time is over. -/
def woken (c : Call) : Bool :=
  match c.api with
  | .pthread_cond_timedwait _ => c.ans.res == 0
  | _ => false

/-- A timed wait on a condition variable reports what the last call of the system has reported: `no_timeout` exactly if the wait has ended before its time. -/
def Notified (log : List Call) : Out Bool → Prop
  | .ret true => ∃ c, log.getLast? = some c ∧ woken c = true
  | .ret false => ∀ c, log.getLast? = some c → woken c = false
  | _ => True

/-- No misuse, no deadlock. -/
def usedWell (c : Call) : Prop := misused c = false ∧ noDeadlock c

/-- A call reported a timeout, or the user's clock says that the time is over. -/
def late (c : Call) : Bool := unavailable c || expired c

/-- `dispatch_semaphore_wait` without a limit does not return before it has succeeded. -/
def untilAcquired (c : Call) : Prop := c.api = .dispatch_semaphore_wait → c.ans.res = 0

/-- `sem_trywait` is not interrupted. -/
def notInterrupted (c : Call) : Prop := c.api = .sem_trywait → c.ans.err ≠ 4

/-- How long a call has waited in vain, in milliseconds.  0xFFFFFFFF is `INFINITE`, not a time. -/
def inVain (c : Call) : Nat :=
  match c.api with
  | .waitFor _ d => if c.ans.res = 0x102 ∧ d ≠ 0xFFFFFFFF then d.toNat else 0
  | _ => 0

/-- A wait for `t` milliseconds gives up only after its calls have waited that long in vain. -/
def Waited (t : Int) (log : List Call) : Out Bool → Prop
  | .ret false => t ≤ ((log.map inVain).sum : Nat)
  | _ => True

/-- The last value that has been read from shared memory. -/
def lastRead (log : List Call) : Option UInt32 := (log.reverse.find? (fun c => c.api == .mem)).map (fun c => c.ans.res)

/-- The result is what the last value read from shared memory says. -/
def Says {α : Type} (P : α → UInt32 → Prop) (log : List Call) : Out α → Prop
  | .ret a => ∃ v, lastRead log = some v ∧ P a v
  | _ => True

/-! ## C95 -/

/-- The state of the emulation's mutex as seen by a thread; `bad`: the thread has done something it must not do. -/
inductive Own
  | free | owned | bad
  deriving DecidableEq, Repr

/-- What a thread may do.  Shared data (`mem`), the condition variable and `unlock` of the user's object need the mutex; `lock` of the user's object may
block and must not be called with it; the mutex is not locked twice and not unlocked by others. -/
def own : Own → Call → Own
  | .bad, _ => .bad
  | o, c =>
    match c.api with
    | .pthread_mutex_lock => if o = .owned then .bad else if c.ans.res = 0 then .owned else .free
    | .pthread_mutex_unlock => if o = .owned then (if c.ans.res = 4 then .owned else .free) else .bad
    | .pthread_cond_wait _ | .pthread_cond_timedwait _ | .pthread_cond_signal | .pthread_cond_broadcast | .mem | .userUnlock =>
      if o = .owned then .owned else .bad
    | .userLock => if o = .free then .free else .bad
    | _ => o

/-- All calls respect `own`, and a function that is left, by `return` or by an exception, does not own the mutex. -/
def Disciplined {α : Type} (log : List Call) : Out α → Prop
  | .ret _ => log.foldl own .free = .free
  | .threw _ => log.foldl own .free = .free
  | _ => log.foldl own .free ≠ .bad

/-- The user's lock during a wait: locked, after `n` times unlocking and locking; unlocked; its `lock` or `unlock` has thrown; the wait has done something it
must not do. -/
inductive Hold
  | held (n : Nat)
  | released (n : Nat)
  | failed (r : Ans)
  | bad
  deriving DecidableEq, Repr

/-- What a wait may do: `unlock` what is locked, `lock` what is unlocked, sleep while it is unlocked. -/
def hold : Hold → Call → Hold
  | h, c =>
    match c.api with
    | .userUnlock =>
      match h with
      | .held n => if c.ans.res = 0 then .released n else .failed c.ans
      | _ => .bad
    | .userLock =>
      match h with
      | .released n => if c.ans.res = 0 then .held (n + 1) else .failed c.ans
      | _ => .bad
    | .pthread_cond_wait .cv | .pthread_cond_timedwait .cv | .waitInfinite .cv | .waitFor .cv _ | .WaitForMultipleObjects .cv =>
      match h with
      | .released n => .released n
      | _ => .bad
    | _ => h

/-- A wait that returns has unlocked and locked the user's object at least `k` times; one that throws leaves it locked or throws the exception of its `lock` or
`unlock`. -/
def Relocked {α : Type} (k : Nat) (log : List Call) : Out α → Prop
  | .ret _ => ∃ n, k ≤ n ∧ log.foldl hold (.held 0) = .held n
  | .threw x => (∃ n, log.foldl hold (.held 0) = .held n) ∨ ∃ r, log.foldl hold (.held 0) = .failed r ∧ x = ⟨.user, .os r.res⟩
  | _ => log.foldl hold (.held 0) ≠ .bad

end Verif.Spec.Outcome
