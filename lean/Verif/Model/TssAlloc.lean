import Verif.Base.LTS

/-!
# Thread-specific storage when memory or other resources are exhausted

Source: src/tss_manager.hpp 69-103, 123-148, 150-255; src/tss_pthread.cpp 46-52, 86-164 (src/tss_windows.cpp 121-128, 156-234 is the same but for
the names of the OS functions); thread_specific/thread_specific_ptr.hpp 43-103; thread_specific/at_thread_exit.hpp 31-61;
condition_variables/notify_all_at_thread_exit.hpp 53-58.

Every place that can fail is told by the environment whether it fails.  Each call of a function of the library is one step; cleanup
functions and callbacks do not call the library (see `Verif.Tss` for that).  All keys are those of `thread_specific_ptr`, i.e. with
`cleanup_at_delete`.  The initialisation (tss_pthread.cpp 54-69) has happened.

A context that is not in the slot of its thread is put into `lost`: no thread leads to it, and its exit processing never takes place.  (It is in
`m_thread_contexts` if it got lost because storing the pointer failed, and not even there if locking `m_mutex` failed; in the second case it is
empty, so that this makes no difference to `delete_key`.)
-/

namespace Verif.TssAlloc

/-- The places that can fail: `new thread_context()` (tss_manager.hpp 142), locking `m_mutex` (144, 190, 198, 224), storing the pointer to the
context (tss_pthread.cpp 90-93 and tss_windows.cpp 125-128: the result of the OS function is ignored), the growth of a vector or of the stack of keys
(tss_manager.hpp 85, 94, 102, 216, 240, 245), `new Function(fun)` (at_thread_exit.hpp 51). -/
structure Fails where
  context : Bool
  lock : Bool
  slot : Bool
  grow : Bool
  functor : Bool
  deriving DecidableEq, Repr

/-- `thread_context`, tss_manager.hpp 69-71; a callback is a number, that of the function object made by `at_thread_exit`; an entry for a
notification is the number of its mutex. -/
structure Ctx where
  storage : List (Option Nat)
  atExit : List Nat
  notify : List Nat
  deriving DecidableEq, Repr

/-- The slots of the threads (tss_pthread.cpp 39, 41), the cleanup functions (tss_manager.hpp 127; only whether there is one) and the freed
keys (129), the function objects that exist (at_thread_exit.hpp 51), the mutexes locked for notifications
(notify_all_at_thread_exit.hpp 57), whether the process has been terminated (tss_pthread.cpp 141; tss_manager.hpp 150, noexcept). -/
structure St where
  slots : List (Option Ctx)
  lost : List Ctx
  table : List Bool
  freed : List Nat
  functors : List Nat
  next : Nat
  locked : List Nat
  dead : Bool
  deriving DecidableEq, Repr

/-- A fresh manager (tss_manager.hpp 132) and `n` threads. -/
def init (n : Nat) : St := ⟨List.replicate n none, [], [], [], [], 0, [], false⟩

/-- How a call ends; `delete_thread_specific_key` calls `abort` (tss_pthread.cpp 139-142). -/
inductive Outcome
  | done | threw | aborted
  deriving DecidableEq, Repr

/-- `get_value`, tss_manager.hpp 74-80. -/
def Ctx.get (c : Ctx) (k : Nat) : Option Nat := (c.storage[k]?).join

/-- `get_thread_specific`, tss_pthread.cpp 145-151. -/
def St.get (s : St) (t k : Nat) : Option Nat :=
  match s.slots[t]? with
  | some (some c) => c.get k
  | _ => none

/-- Where the context found is: in the slot of the thread, or nowhere (the last of `lost`); see `withCtx`. -/
inductive Place
  | slot | nowhere
  deriving DecidableEq, Repr

/-- `get_thread_context` and `create_thread_context`, tss_pthread.cpp 102-108, 116-122, 155-161, tss_manager.hpp 140-148; `none` if it throws. -/
def withCtx (s : St) (t : Nat) (f : Fails) : St × Option Place :=
  match s.slots[t]? with
  | some (some _) => (s, some .slot)
  | _ =>
    if f.context then (s, none)
    else if f.lock then ({ s with lost := s.lost ++ [⟨[], [], []⟩] }, none)
    else if f.slot then ({ s with lost := s.lost ++ [⟨[], [], []⟩] }, some .nowhere)
    else ({ s with slots := s.slots.set t (some ⟨[], [], []⟩) }, some .slot)

/-- The context used in `set_value` etc., called at tss_pthread.cpp 110, 124, 163. -/
def upd (s : St) (t : Nat) (p : Place) (g : Ctx → Ctx) : St :=
  match p with
  | .slot =>
    match s.slots[t]? with
    | some (some c) => { s with slots := s.slots.set t (some (g c)) }
    | _ => s
  | .nowhere => { s with lost := s.lost.dropLast ++ (s.lost.getLast?.map g).toList }

/-- The size of `m_storage`, tss_manager.hpp 84. -/
def size (s : St) (t : Nat) (p : Place) : Nat :=
  match p, s.slots[t]? with
  | .slot, some (some c) => c.storage.length
  | _, _ => 0

/-- The storage after `set_value`, tss_manager.hpp 82-87. -/
def put (l : List (Option Nat)) (k : Nat) (v : Option Nat) : List (Option Nat) :=
  (l ++ List.replicate (k + 1 - l.length) none).set k v

/-- `set_thread_specific`, tss_pthread.cpp 153-164, `set_value`, tss_manager.hpp 82-87. -/
def set (s : St) (t k : Nat) (v : Option Nat) (f : Fails) : St × Outcome :=
  match withCtx s t f with
  | (s, none) => (s, .threw)
  | (s, some p) =>
    if k ≥ size s t p ∧ f.grow then (s, .threw)
    else (upd s t p fun c => { c with storage := put c.storage k v }, .done)

/-- `reset`, thread_specific_ptr.hpp 94-103; the value passed to the cleanup function, if any. -/
def reset (s : St) (t k : Nat) (v : Option Nat) (f : Fails) : St × Outcome × Option Nat :=
  if s.get t k = v then (s, .done, none)
  else
    match set s t k v f with
    | (s', .done) => (s', .done, if s.table[k]? = some true then s.get t k else none)
    | (s', r) => (s', r, none)

/-- `release`, thread_specific_ptr.hpp 86-92; the pointer returned. -/
def release (s : St) (t k : Nat) (f : Fails) : St × Outcome × Option Nat :=
  if s.get t k = none then (s, .done, none)
  else
    match set s t k none f with
    | (s', .done) => (s', .done, s.get t k)
    | (s', r) => (s', r, none)

/-- `at_thread_exit`, at_thread_exit.hpp 48-61, with `add_thread_exit_callback`, tss_pthread.cpp 113-125, and `add_at_exit_entry`,
tss_manager.hpp 89-95. -/
def atThreadExit (s : St) (t : Nat) (f : Fails) : St × Outcome :=
  if f.functor then (s, .threw)
  else
    let id := s.next
    let s := { s with functors := id :: s.functors, next := id + 1 }
    match withCtx s t f with
    | (s, none) => ({ s with functors := s.functors.erase id }, .threw)
    | (s, some p) =>
      if f.grow then ({ s with functors := s.functors.erase id }, .threw)
      else (upd s t p fun c => { c with atExit := c.atExit ++ [id] }, .done)

/-- `notify_all_at_thread_exit`, notify_all_at_thread_exit.hpp 53-58, with `add_thread_exit_notify_entry`, tss_pthread.cpp 99-111, and
`add_notify_at_exit_entry`, tss_manager.hpp 97-103.  The caller's lock has been moved into the parameter, whose destructor unlocks the mutex if an
exception is thrown. -/
def notifyAtExit (s : St) (t m : Nat) (f : Fails) : St × Outcome :=
  match withCtx { s with locked := m :: s.locked } t f with
  | (s, none) => ({ s with locked := s.locked.erase m }, .threw)
  | (s, some p) =>
    if f.grow then ({ s with locked := s.locked.erase m }, .threw)
    else (upd s t p fun c => { c with notify := c.notify ++ [m] }, .done)

/-- `new_key`, tss_manager.hpp 196-220; the key, if it does not throw. -/
def newKey (s : St) (cleanup : Bool) (f : Fails) : St × Outcome × Option Nat :=
  if f.lock then (s, .threw, none)
  else
    match s.freed with
    | k :: ks => ({ s with freed := ks, table := s.table.set k cleanup }, .done, some k)
    | [] =>
      if f.grow then (s, .threw, none)
      else ({ s with table := s.table ++ [cleanup] }, .done, some s.table.length)

/-- The context after `delete_key`, tss_manager.hpp 237-242. -/
def Ctx.clear (k : Nat) (c : Ctx) : Ctx :=
  if (c.get k).isSome then { c with storage := c.storage.set k none } else c

/-- `delete_key` and `delete_thread_specific_key`, tss_manager.hpp 222-255, tss_pthread.cpp 133-143; the values passed to the cleanup
function. -/
def deleteKey (s : St) (k : Nat) (f : Fails) : St × Outcome × List Nat :=
  if f.lock ∨ f.grow then (s, .aborted, [])
  else
    ({ s with slots := s.slots.map (Option.map (Ctx.clear k)), lost := s.lost.map (Ctx.clear k), freed := k :: s.freed,
              table := s.table.set k false }, .done,
     if s.table[k]? = some true then (s.slots.filterMap (·.bind (·.get k))) ++ s.lost.filterMap (·.get k) else [])

/-- The exit of a thread, tss_manager.hpp 150-194, tss_pthread.cpp 46-52: the callbacks run, the last registered first, and their function
objects are deleted (at_thread_exit.hpp 31-37); the values are passed to the cleanup functions; the mutexes are unlocked; the context is deleted.
If locking `m_mutex` fails at 190, `std::terminate` is called.  The function objects of the callbacks called, the values, the mutexes. -/
def threadExit (s : St) (t : Nat) (f : Fails) : St × Outcome × List Nat × List Nat × List Nat :=
  match s.slots[t]? with
  | some (some c) =>
    let s' := { s with functors := c.atExit.reverse.foldl List.erase s.functors, locked := c.notify.foldl List.erase s.locked }
    (if f.lock then s' else { s' with slots := s.slots.set t none }, if f.lock then .aborted else .done, c.atExit.reverse,
     c.storage.zipIdx.filterMap (fun (v, k) => if s.table[k]? = some true then v else none), c.notify)
  | _ => (s, .done, [], [], [])

/-- The functions of the interface: thread_specific_ptr.hpp 43-58, 86-103; at_thread_exit.hpp 48-61; notify_all_at_thread_exit.hpp 53-58; and the end of a
thread, tss_pthread.cpp 46-52. -/
inductive Op
  | reset (t k : Nat) (v : Option Nat)
  | release (t k : Nat)
  | atThreadExit (t : Nat)
  | notifyAtExit (t m : Nat)
  | newKey (cleanup : Bool)
  | deleteKey (k : Nat)
  | exit (t : Nat)
  deriving DecidableEq, Repr

/-- What is observed: how the call ended, the pointer or key it returned, the function object made (at_thread_exit.hpp 51; if it was kept), the callbacks called
(tss_manager.hpp 160), the values passed to cleanup functions (thread_specific_ptr.hpp 101, tss_manager.hpp 176, 252), the mutexes unlocked (tss_manager.hpp 184). -/
inductive Ev
  | ended (op : Op) (r : Outcome)
  | ptr (v : Option Nat)
  | key (k : Nat)
  | kept (id : Nat)
  | called (id : Nat)
  | cleaned (v : Nat)
  | unlocked (m : Nat)
  deriving DecidableEq, Repr

/-- A call of one of the functions cited at `Op` (thread_specific_ptr.hpp 43-58, 86-103; at_thread_exit.hpp 48-61; notify_all_at_thread_exit.hpp 53-58). -/
def call (s : St) (op : Op) (f : Fails) : St × Outcome × List Ev :=
  match op with
  | .reset t k v => let (s', r, w) := reset s t k v f; (s', r, w.toList.map .cleaned)
  | .release t k => let (s', r, w) := release s t k f; (s', r, if r = .done then [.ptr w] else [])
  | .atThreadExit t => let (s', r) := atThreadExit s t f; (s', r, if r = .done then [.kept s.next] else [])
  | .notifyAtExit t m => let (s', r) := notifyAtExit s t m f; (s', r, [])
  | .newKey c => let (s', r, w) := newKey s c f; (s', r, w.toList.map .key)
  | .deleteKey k => let (s', r, l) := deleteKey s k f; (s', r, l.map .cleaned)
  | .exit t => let (s', r, l, v, m) := threadExit s t f; (s', r, l.map .called ++ v.map .cleaned ++ m.map .unlocked)

/-- The preconditions of the calls: the thread exists; the object owning the key (thread_specific_ptr.hpp 39) exists; the caller owns the mutex
(notify_all_at_thread_exit.hpp 50), so that it is not waiting to be unlocked by a thread exit. -/
def allowed (s : St) : Op → Bool
  | .reset t k _ | .release t k => t < s.slots.length && k < s.table.length && !s.freed.contains k
  | .atThreadExit t | .exit t => t < s.slots.length
  | .notifyAtExit t m => t < s.slots.length && !s.locked.contains m
  | .newKey _ => true
  | .deleteKey k => k < s.table.length && !s.freed.contains k

/-- One call; nothing happens after the process has been terminated (tss_pthread.cpp 141, tss_manager.hpp 150). -/
def step : StepFn St (Op × Fails) Ev := fun s (op, f) =>
  if s.dead || !allowed s op then none
  else
    let (s', r, es) := call s op f
    some ({ s' with dead := r = .aborted }, es ++ [.ended op r])

end Verif.TssAlloc
