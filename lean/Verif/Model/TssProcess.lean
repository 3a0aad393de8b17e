import Verif.Base.LTS

/-!
# Thread-specific storage at the end of the process (Windows)

Source: src/tss_windows.cpp 43-48, 52-72, 108-130, 136-234; src/tss_windows_hooks.hpp 33-59; src/tss_windows_dll.cpp 22-53;
src/tss_windows_pe.cpp 40-50, 245-304; src/tss_manager.hpp 69-103, 125-129, 134-255; thread_specific/thread_specific_ptr.hpp 43-103.

The hooks can be called by any thread at any time; callbacks and cleanup functions called by `destroy_thread_context` may call the library.

Simplifications.  Each call of a function of the library is one step, and so is each pass of a loop of `destroy_thread_context`.  The cleanup functions
called by `reset` and `delete_key` do not call the library (see `Verif.Tss`).  All keys are those of `thread_specific_ptr`, i.e. with `cleanup_at_delete`.
Memory allocation does not fail (see `Verif.TssAlloc`).  A context exists from its creation (142-145) to its destruction (191-193) in the
list `m_thread_contexts`; contexts are appended to the list when they are created, so that it is given by the existing contexts in the order of their
creation.  The pointers in the slots of the threads are not: they may point to a context that has been deleted.
-/

namespace Verif.TssProcess

/-- Something handed over to the library until the thread exits: a value stored under a key (tss_manager.hpp 69), a callback (70), a mutex and a condition variable (71). -/
inductive Item
  | val (k v : Nat) | cb (i : Nat) | ntf (m : Nat)
  deriving DecidableEq, Repr

/-- `thread_context`, tss_manager.hpp 69-71. -/
structure Ctx where
  storage : List (Option Nat)
  atExit : List Nat
  notify : List Nat
  deriving DecidableEq, Repr

/-- Where `destroy_thread_context` is (tss_manager.hpp): before line 153 or in the loop at 158-161, with the rest of `at_exit_functions`; before line 165 or in the loop at
169-178, with `key` and the rest of `storage`; in the loop at 182-186.  (That loop runs over the vector in the context, which nobody else
uses then; it is moved into the phase.) -/
inductive Phase
  | atExit (pending : List Nat)
  | tls (key : Nat) (pending : List (Option Nat))
  | notify (pending : List Nat)
  deriving DecidableEq, Repr

/-- A call of `destroy_thread_context` (tss_manager.hpp 150): the argument; where it is; whether a callback or cleanup function is running (160, 176); whether
it is called by the destructor of the manager (137) or by `on_thread_exit` (tss_windows.cpp 162). -/
structure Job where
  ctx : Nat
  ph : Phase
  cb : Bool
  proc : Bool
  deriving DecidableEq, Repr

/-- A thread: the value of `tss_context` or of `tss_key` (tss_windows.cpp 45, 47), and the hook it is in (140-165). -/
structure Thread where
  slot : Option Nat
  job : Option Job
  deriving DecidableEq, Repr

/-- `tss_mgr` and the manager it points to, tss_windows.cpp 43: not yet created (`init_tss_once_flag` is not set, 39-41); in use; being destroyed, with `tss_mgr`
null (142-144); destroyed. -/
inductive Mgr
  | absent | live | dying | gone
  deriving DecidableEq, Repr

/-- The manager; the contexts (tss_manager.hpp 125), `none` if deleted; `m_storage_cleanup` (127; whether there is a cleanup function) and `m_freed_keys` (129); the
threads; whether `tss_key` has been given back (tss_windows.cpp 147-148); whether the behaviour has become undefined (`tss_mgr` or a deleted context dereferenced,
e.g. 162, 176). -/
structure St where
  mgr : Mgr
  heap : List (Option Ctx)
  table : List Bool
  freed : List Nat
  threads : List Thread
  keyFreed : Bool
  dead : Bool
  deriving DecidableEq, Repr

/-- The state before the first call (tss_windows.cpp 39-48). -/
def init (n : Nat) : St := ⟨.absent, [], [], [], List.replicate n ⟨none, none⟩, false, false⟩

/-- The calls: the constructors and the destructor of thread_specific_ptr (thread_specific_ptr.hpp 43-58), `get` (60-63), `reset` (94-103); `at_thread_exit`
(tss_windows.cpp 183-195); `notify_all_at_thread_exit` (169-181); the hooks `on_thread_exit` (156-165) and `on_process_exit` (140-150); the next step of the
hook. -/
inductive Op
  | newKey (cleanup : Bool) | deleteKey (k : Nat) | get (k : Nat) | reset (k : Nat) (v : Option Nat)
  | atThreadExit (i : Nat) | notifyAtExit (m : Nat)
  | threadExit | processExit | next
  deriving DecidableEq, Repr

/-- What is observed: a key created, with or without a cleanup function (tss_manager.hpp 219), a key deleted (245), a value read (tss_windows.cpp 215-221), an item handed over (tss_manager.hpp 86, 94, 102); a value
passed to the cleanup function of the key (thread_specific_ptr.hpp 101, tss_manager.hpp 176, 252) or dropped for want of one, a callback called (160), a mutex unlocked and
the condition variable notified (184-185), a callback deleted with the context without having been called (193); the return of a hook (tss_windows.cpp 150, 165); undefined behaviour. -/
inductive Ev
  | key (t k : Nat) (cleanup : Bool) | deleted (t k : Nat) | got (t k : Nat) (v : Option Nat) | gave (t : Nat) (x : Item)
  | cleaned (t k v : Nat) | dropped (t k v : Nat) | ran (t i : Nat) | unlocked (t m : Nat) | lost (t i : Nat)
  | threadExited (t : Nat) | processExited (t : Nat)
  | ub (t : Nat)
  deriving DecidableEq, Repr

/-- `get_value`, tss_manager.hpp 74-80. -/
def Ctx.get (c : Ctx) (k : Nat) : Option Nat := (c.storage[k]?).join

/-- `set_value`, tss_manager.hpp 82-87. -/
def Ctx.put (c : Ctx) (k : Nat) (v : Option Nat) : Ctx :=
  { c with storage := (c.storage ++ List.replicate (k + 1 - c.storage.length) none).set k v }

/-- The loop body of `delete_key`, tss_manager.hpp 237-242. -/
def Ctx.clear (k : Nat) (c : Ctx) : Ctx := if (c.get k).isSome then { c with storage := c.storage.set k none } else c

/-- `get_thread_context`, tss_windows.cpp 110-113, 121-124: with `BOOST_SYNC_DETAIL_TLS` (`tls`) the variable of the thread; else `TlsGetValue`, which gives null for
the index stored at 148. -/
def ctxPtr (tls : Bool) (s : St) (th : Thread) : Option Nat := if !tls && s.keyFreed then none else th.slot

/-- Undefined behaviour: nothing is known of what happens afterwards (tss_windows.cpp 143 and the uses of `tss_mgr`, 162, 176, 190, 200, 207, 229; tss_manager.hpp 193). -/
def undef (s : St) (t : Nat) : Option (St × List Ev) := some ({ s with dead := true }, [.ub t])

/-- Changes the context of the thread, which is created if there is none: tss_windows.cpp 172-180, 186-194, 225-233, tss_manager.hpp 140-148. -/
def update (tls : Bool) (s : St) (t : Nat) (th : Thread) (f : Ctx → Ctx) (es : List Ev) : Option (St × List Ev) :=
  match ctxPtr tls s th with
  | some i =>
    match s.heap[i]? with
    | some (some c) => some ({ s with heap := s.heap.set i (some (f c)) }, es)
    | _ => undef s t
  | none =>
    if s.mgr = .live then
      some ({ s with heap := s.heap ++ [some (f ⟨[], [], []⟩)], threads := s.threads.set t { th with slot := some s.heap.length } }, es)
    else undef s t

/-- A value that is not stored any more is passed to the cleanup function of the key if there is one: thread_specific_ptr.hpp 100-101, tss_manager.hpp 172-177, 239-240. -/
def dispose (t k : Nat) (cleanup : Bool) (v : Nat) : Ev := if cleanup then .cleaned t k v else .dropped t k v

/-- `reset`, thread_specific_ptr.hpp 94-103, with `get_thread_specific` and `set_thread_specific`, tss_windows.cpp 215-234. -/
def reset (tls : Bool) (s : St) (t : Nat) (th : Thread) (k : Nat) (v : Option Nat) : Option (St × List Ev) :=
  let go (old : Option Nat) :=
    if old = v then some (s, [])
    else update tls s t th (·.put k v) ((v.map fun v => Ev.gave t (.val k v)).toList ++ (old.map (dispose t k (s.table[k]? = some true))).toList)
  match ctxPtr tls s th with
  | none => go none
  | some i =>
    match s.heap[i]? with
    | some (some c) => go (c.get k)
    | _ => undef s t

/-- `new_key`, tss_manager.hpp 196-220, called at tss_windows.cpp 197-201. -/
def newKey (s : St) (t : Nat) (cleanup : Bool) : Option (St × List Ev) :=
  let s := if s.mgr = .absent then { s with mgr := .live } else s
  if s.mgr = .live then
    match s.freed with
    | k :: ks => some ({ s with freed := ks, table := s.table.set k cleanup }, [.key t k cleanup])
    | [] => some ({ s with table := s.table ++ [cleanup] }, [.key t s.table.length cleanup])
  else undef s t

/-- `delete_key`, tss_manager.hpp 222-255, called at tss_windows.cpp 203-213. -/
def deleteKey (s : St) (t k : Nat) : Option (St × List Ev) :=
  if s.mgr = .live then
    some ({ s with heap := s.heap.map (Option.map (Ctx.clear k)), freed := k :: s.freed, table := s.table.set k false },
      .deleted t k :: (s.heap.filterMap (·.bind (·.get k))).map (dispose t k (s.table[k]? = some true)))
  else undef s t

/-- `m_thread_contexts.front()`, tss_manager.hpp 136-137: the first context that exists. -/
def front (heap : List (Option Ctx)) : Option Nat := heap.findIdx? Option.isSome

/-- The test at tss_manager.hpp 136, and what follows: the next call of `destroy_thread_context` at 137, or the end of the destructor and of `on_process_exit`,
tss_windows.cpp 144-150. -/
def procLoop (s : St) (t : Nat) (th : Thread) : St × List Ev :=
  match front s.heap with
  | some i => ({ s with threads := s.threads.set t { th with job := some ⟨i, .atExit [], false, true⟩ } }, [])
  | none => ({ s with mgr := .gone, keyFreed := true, threads := s.threads.set t { th with job := none } }, [.processExited t])

/-- `on_process_exit`, tss_windows.cpp 140-150, up to the first call of `destroy_thread_context`. -/
def processExit (s : St) (t : Nat) (th : Thread) : Option (St × List Ev) :=
  if s.mgr = .live then some (procLoop { s with mgr := .dying } t th)
  else if s.mgr = .absent then some (s, [.processExited t])
  else some ({ s with keyFreed := true }, [.processExited t])

/-- `on_thread_exit`, tss_windows.cpp 156-165, up to the call of `destroy_thread_context`. -/
def threadExit (tls : Bool) (s : St) (t : Nat) (th : Thread) : Option (St × List Ev) :=
  let s := if s.mgr = .absent then { s with mgr := .live } else s
  match ctxPtr tls s th with
  | none => some (s, [.threadExited t])
  | some i =>
    if s.mgr = .live then some ({ s with threads := s.threads.set t { th with job := some ⟨i, .atExit [], false, false⟩ } }, [])
    else undef s t

/-- The end of `destroy_thread_context`, tss_manager.hpp 188-193, and what follows: tss_windows.cpp 163-165 or tss_manager.hpp 136. -/
def finish (s : St) (t : Nat) (th : Thread) (j : Job) (c : Ctx) : St × List Ev :=
  let s := { s with heap := s.heap.set j.ctx none }
  let r := if j.proc then procLoop s t th else ({ s with threads := s.threads.set t ⟨none, none⟩ }, [.threadExited t])
  (r.1, c.atExit.map (.lost t) ++ r.2)

/-- The next step of `destroy_thread_context`, tss_manager.hpp 150-194. -/
def next (s : St) (t : Nat) (th : Thread) (j : Job) : Option (St × List Ev) :=
  let goto (s : St) (ph : Phase) (cb : Bool) (es : List Ev) : Option (St × List Ev) :=
    some ({ s with threads := s.threads.set t { th with job := some { j with ph := ph, cb := cb } } }, es)
  match s.heap[j.ctx]? with
  | some (some c) =>
    match j.ph with
    | .atExit (i :: rest) => goto s (.atExit rest) true [.ran t i]
    | .atExit [] =>
      if c.atExit = [] then goto s (.tls 0 []) false []
      else goto { s with heap := s.heap.set j.ctx (some { c with atExit := [] }) } (.atExit c.atExit.reverse) false []
    | .tls k (none :: rest) => goto s (.tls (k + 1) rest) false []
    | .tls k (some v :: rest) =>
      match s.table[k]? with
      | some b => goto s (.tls (k + 1) rest) b [dispose t k b v]
      | none => undef s t
    | .tls _ [] =>
      if c.storage = [] then goto { s with heap := s.heap.set j.ctx (some { c with notify := [] }) } (.notify c.notify) false []
      else goto { s with heap := s.heap.set j.ctx (some { c with storage := [] }) } (.tls 0 c.storage) false []
    | .notify (m :: rest) => goto s (.notify rest) false [.unlocked t m]
    | .notify [] => some (finish s t th j c)
  | _ => undef s t

/-- Code of the user is running in the thread: not in a hook, or in a callback or cleanup function (tss_manager.hpp 160, 176). -/
def userCode (th : Thread) : Bool :=
  match th.job with
  | none => true
  | some j => j.cb

/-- The key is that of an existing object (thread_specific_ptr.hpp 39, 43-58). -/
def liveKey (s : St) (k : Nat) : Bool := k < s.table.length && !s.freed.contains k

/-- One step of thread `t`: a call of a function or hook (see `Op`), or a step of the hook it is in (tss_windows.cpp 140-234). -/
def step (tls : Bool) : StepFn St (Nat × Op) Ev := fun s (t, op) =>
  match s.threads[t]? with
  | none => none
  | some th =>
    if s.dead then none
    else
      match op with
      | .next =>
        match th.job with
        | none => none
        | some j => next s t th j
      | .threadExit => if th.job = none then threadExit tls s t th else none
      | .processExit => if th.job = none then processExit s t th else none
      | .newKey c => if userCode th then newKey s t c else none
      | .deleteKey k => if userCode th && liveKey s k then deleteKey s t k else none
      | .get k =>
        if userCode th && liveKey s k then
          match ctxPtr tls s th with
          | none => some (s, [.got t k none])
          | some i =>
            match s.heap[i]? with
            | some (some c) => some (s, [.got t k (c.get k)])
            | _ => undef s t
        else none
      | .reset k v => if userCode th && liveKey s k then reset tls s t th k v else none
      | .atThreadExit i =>
        if userCode th then
          update tls (if s.mgr = .absent then { s with mgr := .live } else s) t th (fun c => { c with atExit := c.atExit ++ [i] }) [.gave t (.cb i)]
        else none
      | .notifyAtExit m =>
        if userCode th then
          update tls (if s.mgr = .absent then { s with mgr := .live } else s) t th (fun c => { c with notify := c.notify ++ [m] }) [.gave t (.ntf m)]
        else none

end Verif.TssProcess
