/-!
# Constructors and destructors

The classes that obtain objects from the OS in their constructors.  A class is described by its members that are classes, and by the OS
objects which the body of its constructor creates one after the other (each creation may fail and then throws) and which its
destructor destroys.  The rules of C++: the members are constructed in order, then the body runs; if a member or the body throws, the
members constructed so far are destroyed in reverse order, and the destructor of the class itself is not run.  A destructor runs its body,
then destroys the members in reverse order.

Not described: the members without a destructor, the memory for the objects.  On Windows mutexes and condition variables obtain their OS
objects later (see `Verif.Model.WinGetEvent`, `Verif.Model.WinCondVarDtor`).  The configurations with `PTHREAD_MUTEX_INITIALIZER` and
`PTHREAD_COND_INITIALIZER` create nothing; described are those without (mutex_posix.hpp 71-79, condition_variable_posix.hpp 75-82,
timed_mutex_posix.hpp 97-110).  Destroying never fails (`BOOST_VERIFY`).
-/

namespace Verif.Lifecycle

/-- The kinds of OS objects: `pthread_mutex_init` (mutex_posix.hpp 74), `pthread_cond_init` (condition_variable_posix.hpp 78), `sem_init`
(semaphore_posix.hpp 45), `dispatch_semaphore_create` (semaphore_dispatch.hpp 48), `semaphore_create` (basic_semaphore_mach.hpp 49),
semaphores and events of Windows (semaphore_windows.hpp 51, basic_event_windows.hpp 50). -/
inductive Kind
  | mutex | cond | sem | dispatch | mach | winSem | winEvent
  deriving DecidableEq, Repr

/-- An OS object: its kind and a number; what the calls listed at `Kind` yield. -/
structure Obj where
  kind : Kind
  id : Nat
  deriving DecidableEq, Repr

/-- The OS: the objects that exist, the number for the next one, whether the coming creations succeed (then all others succeed), and whether
something was destroyed that did not exist.  (The results tested e.g. at timed_mutex_posix.hpp 101, 106.) -/
structure OS where
  live : List Obj
  next : Nat
  answers : List Bool
  bad : Bool
  deriving DecidableEq, Repr

/-- A creating call, e.g. timed_mutex_posix.hpp 100. -/
def OS.create (os : OS) (k : Kind) : OS × Option Obj :=
  match os.answers with
  | false :: as => ({ os with answers := as }, none)
  | as => ({ os with answers := as.tail, live := ⟨k, os.next⟩ :: os.live, next := os.next + 1 }, some ⟨k, os.next⟩)

/-- A destroying call, e.g. timed_mutex_posix.hpp 115. -/
def OS.destroy (os : OS) (o : Obj) : OS :=
  if o ∈ os.live then { os with live := os.live.erase o } else { os with bad := true }

/-- A constructor body that creates these OS objects in order, e.g. timed_mutex_posix.hpp 98-110: nothing is destroyed when a later
creation fails. -/
def body : List Kind → OS → OS × Option (List Obj)
  | [], os => (os, some [])
  | k :: ks, os =>
    match os.create k with
    | (os, none) => (os, none)
    | (os, some o) =>
      match body ks os with
      | (os, none) => (os, none)
      | (os, some os') => (os, some (o :: os'))

/-- A destructor body, e.g. timed_mutex_posix.hpp 113-119. -/
def unbody (objs : List Obj) (os : OS) : OS := objs.foldl OS.destroy os

/-- The members of a class that are classes themselves are described by what their constructors create, `own` is what the body of the
class creates (e.g. semaphore_emulation.hpp 40, 102-103; timed_mutex_posix.hpp 61-63, 98-110). -/
structure Cls where
  members : List (List Kind)
  own : List Kind
  deriving DecidableEq, Repr

/-- The members in order; `done` are those constructed, the last one first (e.g. semaphore_emulation.hpp 102-103). -/
def members : List (List Kind) → List (List Obj) → OS → OS × Option (List (List Obj))
  | [], done, os => (os, some done)
  | m :: ms, done, os =>
    match body m os with
    | (os, none) => (done.foldl (fun os m => unbody m os) os, none)
    | (os, some o) => members ms (o :: done) os

/-- A constructor (e.g. semaphore_emulation.hpp 40-42, timed_mutex_posix.hpp 98-110). -/
def construct (c : Cls) (os : OS) : OS × Option (List Obj × List (List Obj)) :=
  match members c.members [] os with
  | (os, none) => (os, none)
  | (os, some ms) =>
    match body c.own os with
    | (os, none) => (ms.foldl (fun os m => unbody m os) os, none)
    | (os, some own) => (os, some (own, ms))

/-- A destructor (e.g. timed_mutex_posix.hpp 113-119). -/
def destruct (x : List Obj × List (List Obj)) (os : OS) : OS := x.2.foldl (fun os m => unbody m os) (unbody x.1 os)

/-- mutex_posix.hpp 71-85 -/
def mutexPosix : Cls := ⟨[], [.mutex]⟩

/-- condition_variable_posix.hpp 76-87 -/
def condVarPosix : Cls := ⟨[], [.cond]⟩

/-- timed_mutex_posix.hpp 98-119, without `BOOST_SYNC_DETAIL_PTHREAD_HAS_TIMEDLOCK` -/
def timedMutexEmulation : Cls := ⟨[], [.mutex, .cond]⟩

/-- timed_mutex_posix.hpp 98-119, with `BOOST_SYNC_DETAIL_PTHREAD_HAS_TIMEDLOCK` -/
def timedMutexPosix : Cls := ⟨[], [.mutex]⟩

/-- condition_variable_any_generic.hpp 67-70 -/
def condVarAny : Cls := ⟨[[.mutex], [.cond]], []⟩

/-- semaphore_emulation.hpp 40-42, 101-104 -/
def semaphoreEmulation : Cls := ⟨[[.mutex], [.cond]], []⟩

/-- auto_reset_event_emulation.hpp 40-42, 105-108 and manual_reset_event_emulation.hpp, the same lines -/
def eventEmulation : Cls := ⟨[[.mutex], [.cond]], []⟩

/-- semaphore_posix.hpp 43-56 -/
def semaphorePosix : Cls := ⟨[], [.sem]⟩

/-- semaphore_dispatch.hpp 43-60 -/
def semaphoreDispatch : Cls := ⟨[], [.dispatch]⟩

/-- basic_semaphore_mach.hpp 47-57 within semaphore_mach.hpp 35, 62 -/
def semaphoreMach : Cls := ⟨[[.mach]], []⟩

/-- semaphore_windows.hpp 49-62 -/
def semaphoreWindows : Cls := ⟨[], [.winSem]⟩

/-- basic_event_windows.hpp 48-61 within auto_reset_event_windows.hpp 35, 62 and manual_reset_event_windows.hpp 35, 63 -/
def eventWindows : Cls := ⟨[[.winEvent]], []⟩

/-- auto_reset_event_semaphore.hpp 39-41, 110, with the POSIX, the dispatch or the Mach semaphore -/
def eventSemaphore (k : Kind) : Cls := ⟨[[k]], []⟩

/-- The classes above, by name (the files and lines are given there). -/
inductive Name
  | mutexPosix | condVarPosix | timedMutexEmulation | timedMutexPosix | condVarAny | semaphoreEmulation | eventEmulation
  | semaphorePosix | semaphoreDispatch | semaphoreMach | semaphoreWindows | eventWindows
  | eventSemPosix | eventSemDispatch | eventSemMach
  deriving DecidableEq, Repr

/-- What the name stands for (the files and lines are given above). -/
def Name.cls : Name → Cls
  | .mutexPosix => Lifecycle.mutexPosix
  | .condVarPosix => Lifecycle.condVarPosix
  | .timedMutexEmulation => Lifecycle.timedMutexEmulation
  | .timedMutexPosix => Lifecycle.timedMutexPosix
  | .condVarAny => Lifecycle.condVarAny
  | .semaphoreEmulation => Lifecycle.semaphoreEmulation
  | .eventEmulation => Lifecycle.eventEmulation
  | .semaphorePosix => Lifecycle.semaphorePosix
  | .semaphoreDispatch => Lifecycle.semaphoreDispatch
  | .semaphoreMach => Lifecycle.semaphoreMach
  | .semaphoreWindows => Lifecycle.semaphoreWindows
  | .eventWindows => Lifecycle.eventWindows
  | .eventSemPosix => eventSemaphore .sem
  | .eventSemDispatch => eventSemaphore .dispatch
  | .eventSemMach => eventSemaphore .mach

end Verif.Lifecycle
