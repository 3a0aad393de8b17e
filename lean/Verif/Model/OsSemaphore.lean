import Verif.Base.LTS

/-!
# Semaphores backed by a semaphore of the operating system

Models the four classes `semaphore` in include/boost/sync/detail/semaphore:

* `semaphore_posix.hpp` 37-187 (`sem_t`),
* `semaphore_windows.hpp` 43-199 (kernel semaphore),
* `semaphore_dispatch.hpp` 37-144 (libdispatch),
* `semaphore_mach.hpp` 29-63 and `basic_semaphore_mach.hpp` 41-179 (Mach).

The semaphore of the system is a counter with a maximum; each call of the system is one atomic action whose answer is chosen
by the environment among those the system's documentation allows (`os`).  The code around it decides on the answer
(`decide`): return, throw, or call the system again.

Simplifications.
* A call that blocks is represented by the instant at which the system answers it.
* The repetition of timed waits (chunks of at most `max_non_infinite_wait` on Windows, loops against clocks other than the
  system clock everywhere) depends on time, which is not represented here: after a timeout the environment decides whether
  another call follows (`again`).  See `Verif.Model.UserClock`.
* `BOOST_ASSERT(false)` is a distinct outcome (`assertion`); it is reached only if the system reports an error that implies
  that the semaphore object itself is invalid.
-/

namespace Verif.OsSem

/-- The four classes: semaphore_posix.hpp 37-187, semaphore_windows.hpp 43-199, semaphore_dispatch.hpp 37-144, semaphore_mach.hpp 29-63. -/
inductive Impl
  | posix | windows | dispatch | mach
  deriving DecidableEq, Repr

/-- The member functions: `post`, `wait`, `try_wait`, and `timed_wait`, `wait_for`, `wait_until` (which are one here):
semaphore_posix.hpp 58-183, semaphore_windows.hpp 64-195, semaphore_dispatch.hpp 61-140,
basic_semaphore_mach.hpp 59-175. -/
inductive Op
  | post | wait | tryWait | timedWait
  deriving DecidableEq, Repr

/-- Answers of the system, as distinguished by semaphore_posix.hpp 61-76, 84-97, 104-117, 149-165, semaphore_windows.hpp 66-71, 76-80,
86-93, 125-140, 159-176, semaphore_dispatch.hpp 73, 116, 123, basic_semaphore_mach.hpp 61, 73-92, 153-174. -/
inductive Answer
  /-- 0, `WAIT_OBJECT_0`, `KERN_SUCCESS` -/
  | ok
  /-- `EAGAIN`, `ETIMEDOUT`, `WAIT_TIMEOUT`, non-zero result of `dispatch_semaphore_wait`, `KERN_OPERATION_TIMED_OUT` -/
  | unavailable
  /-- `EINTR`, `KERN_ABORTED` -/
  | interrupted
  /-- `EOVERFLOW`, failure of `ReleaseSemaphore` -/
  | overflow
  /-- `EINVAL`, `WAIT_FAILED`, `KERN_INVALID_ARGUMENT`, `KERN_TERMINATED` -/
  | error
  deriving DecidableEq, Repr

/-- What a call of the library reports (semaphore_posix.hpp 58-183, semaphore_windows.hpp 64-195, semaphore_dispatch.hpp 61-140, basic_semaphore_mach.hpp
59-175). -/
inductive Outcome
  /-- normal return; `false` is the result of an unsuccessful `try_wait`/`timed_wait` -/
  | returned (b : Bool)
  | threw
  /-- `BOOST_ASSERT(false)` -/
  | assertion
  deriving DecidableEq, Repr

/-- What the code does after an answer: return or throw, or `continue` of the loops semaphore_posix.hpp 81-98, 146-166,
basic_semaphore_mach.hpp 71-93. -/
inductive Verdict
  | finish (o : Outcome)
  /-- `continue` of the `for (;;)` loops -/
  | retry
  deriving DecidableEq, Repr

/-- The answers the system may give to the calls in semaphore_posix.hpp 60, 83, 103, 148, semaphore_windows.hpp 66, 76, 86, 125, 159,
semaphore_dispatch.hpp 63, 68, 73, 116, 123, basic_semaphore_mach.hpp 61, 73, 153, and the new value of its counter.

`sem_wait`, `sem_trywait`, `sem_timedwait`, `sem_post` (POSIX); `WaitForSingleObject`, `WaitForMultipleObjects`,
`ReleaseSemaphore`; `dispatch_semaphore_wait`, `dispatch_semaphore_signal`; `semaphore_wait`, `semaphore_timedwait`,
`semaphore_signal`. -/
def os (i : Impl) (max : Nat) (op : Op) (a : Answer) (count : Nat) : Option Nat :=
  match op, a with
  | .post, .ok => if count < max then some (count + 1) else none
  | .post, .overflow => if count = max ∧ (i = .posix ∨ i = .windows) then some count else none
  | .wait, .ok | .tryWait, .ok | .timedWait, .ok => if 0 < count then some (count - 1) else none
  | .tryWait, .unavailable | .timedWait, .unavailable => if count = 0 then some count else none
  | .wait, .interrupted | .tryWait, .interrupted | .timedWait, .interrupted =>
    if i = .posix ∨ i = .mach then some count else none
  | .wait, .error | .tryWait, .error | .timedWait, .error | .post, .error =>
    if i = .dispatch then none else some count
  | _, _ => none

/-- What the code does with the answer.

posix: `post` 58-77, `wait` 79-99, `try_wait` 101-118, `priv_timed_wait` 144-167.
windows: `post` 64-72, `wait` 74-81, `try_wait` 84-94, `priv_timed_wait` 115-145, 147-177.
dispatch: `post` 61-64, `wait` 66-69, `try_wait` 71-74, `priv_timed_wait` 95-124.
mach (basic_semaphore_mach.hpp): `post` 59-62, `wait` 69-94, `try_wait` 96-100, `priv_timed_wait` 151-175. -/
def decide : Impl → Op → Answer → Verdict
  | .posix, .post, .ok => .finish (.returned true)
  | .posix, .post, .overflow => .finish .threw
  | .posix, .post, _ => .finish .assertion
  | .posix, .wait, .ok => .finish (.returned true)
  | .posix, .wait, .interrupted => .retry
  | .posix, .wait, _ => .finish .assertion
  | .posix, .tryWait, .ok => .finish (.returned true)
  | .posix, .tryWait, .interrupted | .posix, .tryWait, .unavailable => .finish (.returned false)
  | .posix, .tryWait, _ => .finish .assertion
  | .posix, .timedWait, .ok => .finish (.returned true)
  | .posix, .timedWait, .unavailable => .finish (.returned false)
  | .posix, .timedWait, .interrupted => .retry
  | .posix, .timedWait, _ => .finish .assertion
  | .windows, .post, .ok => .finish (.returned true)
  | .windows, .post, _ => .finish .threw
  | .windows, .wait, .ok => .finish (.returned true)
  | .windows, .wait, _ => .finish .threw
  | .windows, .tryWait, .ok | .windows, .timedWait, .ok => .finish (.returned true)
  | .windows, .tryWait, .unavailable | .windows, .timedWait, .unavailable => .finish (.returned false)
  | .windows, .tryWait, _ | .windows, .timedWait, _ => .finish .threw
  -- the results of `dispatch_semaphore_signal` and of the untimed wait are ignored
  | .dispatch, .post, _ | .dispatch, .wait, _ => .finish (.returned true)
  | .dispatch, .tryWait, .ok | .dispatch, .timedWait, .ok => .finish (.returned true)
  | .dispatch, .tryWait, _ | .dispatch, .timedWait, _ => .finish (.returned false)
  | .mach, .post, .ok => .finish (.returned true)
  | .mach, .post, _ => .finish .assertion
  | .mach, .wait, .ok => .finish (.returned true)
  | .mach, .wait, .interrupted => .retry
  | .mach, .wait, _ => .finish .threw
  | .mach, .tryWait, .ok | .mach, .timedWait, .ok => .finish (.returned true)
  | .mach, .tryWait, .unavailable | .mach, .timedWait, .unavailable => .finish (.returned false)
  | .mach, .tryWait, _ | .mach, .timedWait, _ => .finish .threw

/-- The loop of the constructor in semaphore_dispatch.hpp lines 52-53: `for (; i > 0; --i) dispatch_semaphore_signal(m_sem);` -/
def dispatchLoop (i : UInt32) (count : Nat) : Nat :=
  if h : i > 0 then dispatchLoop (i - 1) (count + 1) else count
  termination_by i.toNat
  decreasing_by
    have h0 : 0 < i.toNat := by simpa [UInt32.lt_iff_toNat_lt] using h
    rw [UInt32.toNat_sub_of_le _ _ (by rw [UInt32.le_iff_toNat_le]; simp only [UInt32.toNat_one]; omega)]
    simp only [UInt32.toNat_one]
    omega

/-- Constructors: semaphore_posix.hpp 43-51, semaphore_windows.hpp 49-57, semaphore_dispatch.hpp 43-54,
basic_semaphore_mach.hpp 47-52; `none`: an exception.  The system refuses initial counts above its maximum.  libdispatch
starts with 0. -/
def create (impl : Impl) (max : Nat) (i : UInt32) : Option Nat :=
  match impl with
  | .dispatch => if i.toNat ≤ max then some (dispatchLoop i 0) else none
  | _ => if i.toNat ≤ max then some i.toNat else none

/-- Where a thread is in a call of
semaphore_posix.hpp 58-183, semaphore_windows.hpp 64-195, semaphore_dispatch.hpp 61-140,
basic_semaphore_mach.hpp 59-175. -/
inductive PC
  | idle
  /-- in a call of the system -/
  | calling (op : Op)
  | done (op : Op) (o : Outcome)
  deriving DecidableEq, Repr

/-- The semaphore of the system (semaphore_posix.hpp 186, semaphore_windows.hpp 198, semaphore_dispatch.hpp 143,
basic_semaphore_mach.hpp 178) and the threads. -/
structure St where
  count : Nat
  ths : List PC
  deriving DecidableEq, Repr

/-- What happens next: a call, an answer of the system, or the return of the call
(semaphore_posix.hpp 58-183, semaphore_windows.hpp 64-195,
semaphore_dispatch.hpp 61-140, basic_semaphore_mach.hpp 59-175). -/
inductive Act
  | call (op : Op)
  /-- the system answers; `again`: a timed wait that was told `unavailable` calls the system again -/
  | answer (a : Answer) (again : Bool)
  | ret
  deriving DecidableEq, Repr

/-- What is observed of the calls of semaphore_posix.hpp 58-183, semaphore_windows.hpp 64-195, semaphore_dispatch.hpp 61-140,
basic_semaphore_mach.hpp 59-175. -/
inductive Ev
  | called (t : Nat) (op : Op)
  | ret (t : Nat) (op : Op) (o : Outcome)
  deriving DecidableEq, Repr

/-- After the constructor: semaphore_posix.hpp 43-51, semaphore_windows.hpp 49-57, semaphore_dispatch.hpp 43-54,
basic_semaphore_mach.hpp 47-52 (see `create`). -/
def init (count n : Nat) : St := ⟨count, List.replicate n .idle⟩

/-- One action of thread `t`: semaphore_posix.hpp 58-183, semaphore_windows.hpp 64-195, semaphore_dispatch.hpp 61-140,
basic_semaphore_mach.hpp 59-175. -/
def step (i : Impl) (max : Nat) : StepFn St (Nat × Act) Ev := fun s (t, a) =>
  match s.ths[t]? with
  | none => none
  | some pc =>
    match pc, a with
    | .idle, .call op => some ({ s with ths := s.ths.set t (.calling op) }, [.called t op])
    | .calling op, .answer ans again =>
      match os i max op ans s.count with
      | none => none
      | some c =>
        if again then
          if op = .timedWait ∧ ans = .unavailable then some (⟨c, s.ths⟩, []) else none
        else match decide i op ans with
          | .retry => some (⟨c, s.ths⟩, [])
          | .finish o => some (⟨c, s.ths.set t (.done op o)⟩, [])
    | .done op o, .ret => some ({ s with ths := s.ths.set t .idle }, [.ret t op o])
    | _, _ => none

end Verif.OsSem
