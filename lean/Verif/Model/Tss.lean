import Verif.Base.LTS

/-!
# Thread-specific storage and thread exit

Models src/tss_manager.hpp 42-259, the functions of src/tss_pthread.cpp 46-164 and src/tss_windows.cpp 110-234 and
thread_specific/thread_specific_ptr.hpp 33-113, thread_specific/at_thread_exit.hpp 31-61,
condition_variables/notify_all_at_thread_exit.hpp 53-58.  Any number of threads; a thread moves by calling a function of the
library, from its own code or from within a callback or cleanup function of the library (which may therefore do anything), or by the next
step of its exit processing.

Simplifications.  Each call of a function of the library is one step (its accesses to the shared tables are protected by `m_mutex`
or not at all: see `Verif.TssRace`), except that the cleanups run by `delete_key` and at thread exit are single steps.
Contexts are part of the thread they were created by, in place of the list `m_thread_contexts`, so `delete_key` visits the
threads in order of their number.  Memory allocation does not fail.  Keys do not overflow 32 bits.  The destructor of the manager
(process exit on Windows) is modelled in `Verif.TssProcess`.
-/

namespace Verif.Tss

/-- A non-null pointer stored (`void*` in tss_manager.hpp 69).  The number of the object it was stored in is ghost state: nothing depends
on it. -/
structure Ptr where
  obj : Nat
  v : Nat
  deriving DecidableEq, Repr

/-- `cleanup_info`, tss_manager.hpp 115-119; the cleanup function is given by the number of the object it was given for. -/
structure Info where
  cleanup : Option Nat
  atDelete : Bool
  deriving DecidableEq, Repr

/-- A thread_specific_ptr, thread_specific_ptr.hpp 39-40: `m_key`, and whether `m_cleanup` is not null.  (`atDelete` is always true
for thread_specific_ptr.) -/
structure Obj where
  key : Nat
  live : Bool
  cleanup : Bool
  atDelete : Bool
  deriving DecidableEq, Repr

/-- `thread_context`, tss_manager.hpp 69-71. -/
structure Ctx where
  storage : List (Option Ptr)
  atExit : List Nat
  notify : List (Nat × Nat)
  deriving DecidableEq, Repr

/-- The context made by `new thread_context()`, tss_manager.hpp 142. -/
def Ctx.empty : Ctx := ⟨[], [], []⟩

/-- Where a thread is in its exit processing (tss_manager.hpp 150-194); the numbers `r` count the calls of the destructor of the
pthread key (tss_pthread.cpp 46-52, 66). -/
inductive Phase
  | running
  /-- the system looks whether there is (again) a context -/
  | between (r : Nat)
  /-- in the loop at tss_manager.hpp 153-162; rest of `at_exit_functions` -/
  | atExit (pending : List Nat) (r : Nat)
  /-- in the loop at tss_manager.hpp 165-179; next `key` and rest of `storage` -/
  | tls (key : Nat) (pending : List (Option Ptr)) (r : Nat)
  /-- in the loop at tss_manager.hpp 182-186 -/
  | notify (pending : List (Nat × Nat)) (r : Nat)
  | done
  deriving DecidableEq, Repr

/-- A thread: its context (tss_pthread.cpp 39, 41; tss_windows.cpp 45, 47) and what it is doing (tss_manager.hpp 150-194, 222-255). -/
structure Thread where
  /-- the context as known to the thread: `tss_context`, or the value of `tss_key` -/
  slot : Option Ctx
  /-- the context being destroyed when it is not in the slot any more -/
  dying : Option Ctx
  /-- cleanups still to be called by `delete_key`: function and argument -/
  todo : List (Nat × Ptr)
  ph : Phase
  /-- a callback or cleanup function called by the exit processing is running -/
  cb : Bool
  deriving DecidableEq, Repr

/-- The objects (thread_specific_ptr.hpp 39-40), the members of the manager (tss_manager.hpp 125-129; the contexts are those of the
threads). -/
structure St where
  objs : List Obj
  /-- `m_storage_cleanup` -/
  table : List Info
  /-- `m_freed_keys` -/
  freed : List Nat
  threads : List Thread
  deriving DecidableEq, Repr

/-- A fresh manager (tss_manager.hpp 132) and `n` threads without context. -/
def init (n : Nat) : St := ⟨[], [], [], List.replicate n ⟨none, none, [], .running, false⟩⟩

/-- The configurations: tss_pthread.cpp 38-42 and 65-68; tss_windows.cpp 156-165. -/
inductive Cfg
  /-- tss_pthread.cpp with a pthread key; the system calls its destructor at most that many times (POSIX: at least 4) -/
  | pthreadKey (rounds : Nat)
  /-- tss_pthread.cpp with `BOOST_SYNC_DETAIL_TLS` -/
  | posixTls
  /-- tss_windows.cpp -/
  | windows
  deriving DecidableEq, Repr

/-- Why a cleanup function is called: thread_specific_ptr.hpp 101, tss_manager.hpp 176, 252. -/
inductive Why
  | replaced | exit | deleted
  deriving DecidableEq, Repr

/-- What is observed of calls of the library (thread_specific_ptr.hpp 43-103, at_thread_exit.hpp 49-61,
notify_all_at_thread_exit.hpp 53-58) and of the exit of threads (tss_manager.hpp 150-194). -/
inductive Ev
  | created (o : Nat)
  | destroyed (o : Nat)
  | got (t o : Nat) (v : Option Nat)
  /-- `reset(p)` with a non-null pointer -/
  | stored (t : Nat) (p : Ptr)
  /-- the value of the thread becomes null by `reset()` or `release()` -/
  | cleared (t o : Nat)
  | released (t : Nat) (p : Ptr)
  /-- the cleanup function of object `c` is called -/
  | cleaned (t : Nat) (why : Why) (c : Nat) (p : Ptr)
  /-- a value is forgotten without a call of a cleanup function -/
  | dropped (t : Nat) (p : Ptr)
  | registered (t id : Nat)
  | ran (t id : Nat)
  | notifyRegistered (t : Nat) (n : Nat × Nat)
  | unlocked (t m : Nat)
  | notified (t c : Nat)
  /-- the thread begins to terminate -/
  | exiting (t : Nat)
  /-- the thread is gone -/
  | ended (t : Nat)
  /-- table indexed out of range, or null context -/
  | ub
  deriving DecidableEq, Repr

/-- `get_value`, tss_manager.hpp 74-80. -/
def getValue (c : Ctx) (k : Nat) : Option Ptr :=
  match c.storage[k]? with
  | some x => x
  | none => none

/-- `set_value`, tss_manager.hpp 82-87. -/
def setValue (c : Ctx) (k : Nat) (x : Option Ptr) : Ctx :=
  let st := if c.storage.length ≤ k then c.storage ++ List.replicate (k + 1 - c.storage.length) none else c.storage
  { c with storage := st.set k x }

/-- `get_thread_specific`, tss_pthread.cpp 145-151; tss_windows.cpp 215-221. -/
def getSpecific (th : Thread) (k : Nat) : Option Ptr :=
  match th.slot with
  | none => none
  | some c => getValue c k

/-- The context of the thread, created if there is none: e.g. tss_pthread.cpp 155-161. -/
def ensureCtx (th : Thread) : Ctx :=
  match th.slot with
  | none => Ctx.empty
  | some c => c

/-- `set_thread_specific`, tss_pthread.cpp 153-164; tss_windows.cpp 223-234. -/
def setSpecific (th : Thread) (k : Nat) (x : Option Ptr) : Thread := { th with slot := some (setValue (ensureCtx th) k x) }

/-- Loop body of `delete_key`, tss_manager.hpp 237-242: the value found and the context without it. -/
def takeKey (k : Nat) (c : Option Ctx) : Option Ptr × Option Ctx :=
  match c with
  | none => (none, none)
  | some c =>
    match c.storage[k]? with
    | some (some p) => (some p, some { c with storage := c.storage.set k none })
    | _ => (none, some c)

/-- Loop body of `delete_key`, tss_manager.hpp 237-242, for the context(s) of one thread (two while it is exiting and has a new one). -/
def takeThread (k : Nat) (th : Thread) : List Ptr × Thread :=
  let a := takeKey k th.slot
  let b := takeKey k th.dying
  (a.1.toList ++ b.1.toList, { th with slot := a.2, dying := b.2 })

/-- The loop of `delete_key` over all contexts, tss_manager.hpp 235-243. -/
def takeAll (k : Nat) : List Thread → List Ptr × List Thread
  | [] => ([], [])
  | th :: ths => ((takeThread k th).1 ++ (takeAll k ths).1, (takeThread k th).2 :: (takeAll k ths).2)

/-- What a thread does next: the functions of thread_specific_ptr.hpp 43-103, at_thread_exit.hpp 49-61,
notify_all_at_thread_exit.hpp 53-58; the rest of `delete_key` (tss_manager.hpp 250-253); thread exit (tss_manager.hpp 150-194). -/
inductive Op
  | create (cleanup atDelete : Bool)
  | destroy (o : Nat)
  | get (o : Nat)
  | reset (o : Nat) (v : Option Nat)
  | release (o : Nat)
  | atThreadExit (id : Nat)
  | notifyAtExit (n : Nat × Nat)
  /-- next cleanup called by `delete_key` -/
  | cleanNext
  /-- the function of the thread returns -/
  | exit
  /-- next step of the exit processing -/
  | exitStep
  deriving DecidableEq, Repr

/-- `new_key`, tss_manager.hpp 196-220, with the constructors of thread_specific_ptr (thread_specific_ptr.hpp 43-53). -/
def newKey (s : St) (cleanup atDelete : Bool) : Option (St × List Ev) :=
  let o := s.objs.length
  let info : Info := ⟨if cleanup then some o else none, atDelete⟩
  match s.freed with
  | k :: freed =>
    match s.table[k]? with
    | none => some (s, [.ub])
    | some _ => some ({ s with objs := s.objs ++ [⟨k, true, cleanup, atDelete⟩], table := s.table.set k info, freed := freed }, [.created o])
  | [] =>
    let k := s.table.length
    some ({ s with objs := s.objs ++ [⟨k, true, cleanup, atDelete⟩], table := s.table ++ [info] }, [.created o])

/-- Adds cleanups to be called by thread `t` (tss_manager.hpp 250-253). -/
def addTodo (ths : List Thread) (t : Nat) (l : List (Nat × Ptr)) : List Thread :=
  ths.modify t fun th => { th with todo := l ++ th.todo }

/-- `delete_key`, tss_manager.hpp 222-255, called by thread `t`. -/
def deleteKey (s : St) (t o : Nat) (ob : Obj) : St × List Ev :=
  let s₁ := { s with objs := s.objs.set o { ob with live := false } }
  match s.table[ob.key]? with
  | none => (s, [.ub])
  | some info =>
    if info.atDelete then
      let r := takeAll ob.key s.threads
      let s₂ := { s₁ with table := s.table.set ob.key { info with cleanup := none }, freed := ob.key :: s.freed }
      match info.cleanup with
      | some c => ({ s₂ with threads := addTodo r.2 t (r.1.map fun p => (c, p)) }, [.destroyed o])
      | none => ({ s₂ with threads := r.2 }, .destroyed o :: r.1.map (Ev.dropped t))
    else (s₁, [.destroyed o])

/-- `reset`, thread_specific_ptr.hpp 94-103: the new thread and the events. -/
def doReset (t o : Nat) (ob : Obj) (th : Thread) (v : Option Nat) : Thread × List Ev :=
  let old := getSpecific th ob.key
  if old.map Ptr.v = v then (th, [])
  else
    (setSpecific th ob.key (v.map (Ptr.mk o)),
     (match v with
      | some x => [.stored t ⟨o, x⟩]
      | none => [.cleared t o]) ++
     (match old with
      | some p => if ob.cleanup then [.cleaned t .replaced o p] else [.dropped t p]
      | none => []))

/-- `release`, thread_specific_ptr.hpp 86-92. -/
def doRelease (t o : Nat) (ob : Obj) (th : Thread) : Thread × List Ev :=
  match getSpecific th ob.key with
  | some p => (setSpecific th ob.key none, [.cleared t o, .released t p])
  | none => (th, [])

/-- The context being destroyed (the argument of `destroy_thread_context`, tss_manager.hpp 150). -/
def victim (th : Thread) : Option Ctx :=
  match th.dying with
  | some c => some c
  | none => th.slot

/-- A change of the context being destroyed (tss_manager.hpp 156, 168). -/
def setVictim (th : Thread) (c : Option Ctx) : Thread :=
  match th.dying with
  | some _ => { th with dying := c }
  | none => { th with slot := c }

/-- One step of the exit processing of thread `t`.  (The first pass of the loop at tss_manager.hpp 153 begins in the step that enters
`destroy_thread_context`.) -/
def exitStep (cfg : Cfg) (table : List Info) (t : Nat) (th : Thread) : Option (Thread × List Ev) :=
  match th.ph with
  | .running => none
  | .done => none
  | .between r =>
    match cfg with
    -- nothing is ever called: tss_pthread.cpp 65-68 does not create the key
    | .posixTls => some ({ th with ph := .done }, [.ended t])
    -- the system sets the slot to null and calls tss_cleanup, 46-52
    | .pthreadKey rounds =>
      match th.slot with
      | none => some ({ th with ph := .done }, [.ended t])
      | some c =>
        if r < rounds then some ({ th with slot := none, dying := some { c with atExit := [] }, ph := .atExit c.atExit.reverse r }, [])
        else some ({ th with ph := .done }, [.ended t])
    -- on_thread_exit, tss_windows.cpp 156-165: the slot is kept
    | .windows =>
      match th.slot with
      | none => some ({ th with ph := .done }, [.ended t])
      | some c => some ({ th with slot := some { c with atExit := [] }, ph := .atExit c.atExit.reverse r }, [])
  -- destroy_thread_context, tss_manager.hpp 150-194
  | .atExit (id :: rest) r => some ({ th with ph := .atExit rest r, cb := true }, [.ran t id])
  | .atExit [] r =>
    match victim th with
    | none => some (th, [.ub])
    | some c =>
      if c.atExit = [] then some ({ th with ph := .tls 0 [] r, cb := false }, [])
      else some ({ setVictim th (some { c with atExit := [] }) with ph := .atExit c.atExit.reverse r, cb := false }, [])
  | .tls k (none :: rest) r => some ({ th with ph := .tls (k + 1) rest r, cb := false }, [])
  | .tls k (some p :: rest) r =>
    match table[k]? with
    | none => some (th, [.ub])
    | some info =>
      match info.cleanup with
      | some c => some ({ th with ph := .tls (k + 1) rest r, cb := true }, [.cleaned t .exit c p])
      | none => some ({ th with ph := .tls (k + 1) rest r, cb := false }, [.dropped t p])
  | .tls _ [] r =>
    match victim th with
    | none => some (th, [.ub])
    | some c =>
      if c.storage = [] then some ({ th with ph := .notify c.notify r, cb := false }, [])
      else some ({ setVictim th (some { c with storage := [] }) with ph := .tls 0 c.storage r, cb := false }, [])
  | .notify (n :: rest) r => some ({ th with ph := .notify rest r }, [.unlocked t n.1, .notified t n.2])
  | .notify [] r =>
    match cfg with
    | .windows => some ({ th with slot := none, ph := .done }, [.ended t])
    | _ => some ({ th with dying := none, ph := .between (r + 1) }, [])

/-- Code of the user may be running: the function of the thread, or a callback or cleanup function (tss_manager.hpp 160, 176). -/
def userCode (th : Thread) : Bool := decide (th.ph = .running) || th.cb

/-- The live object `o` (between thread_specific_ptr.hpp 43-53 and 55-58). -/
def liveObj (s : St) (o : Nat) : Option Obj :=
  match s.objs[o]? with
  | some ob => if ob.live then some ob else none
  | none => none

/-- The thread `t` changes: no counterpart in the code (its context is memory of its own, tss_manager.hpp 69-71). -/
def setThread (s : St) (t : Nat) (r : Thread × List Ev) : Option (St × List Ev) := some ({ s with threads := s.threads.set t r.1 }, r.2)

/-- One action of thread `t`: a call of a function of the library (thread_specific_ptr.hpp 43-103, at_thread_exit.hpp 49-61,
notify_all_at_thread_exit.hpp 53-58), or a step of its exit (tss_manager.hpp 150-194). -/
def step (cfg : Cfg) : StepFn St (Nat × Op) Ev := fun s (t, op) =>
  match s.threads[t]? with
  | none => none
  | some th =>
    match op with
    | .exit => if th.ph = .running ∧ th.todo = [] then setThread s t ({ th with ph := .between 0 }, [.exiting t]) else none
    | .exitStep =>
      if th.todo = [] then
        match exitStep cfg s.table t th with
        | none => none
        | some r => setThread s t r
      else none
    | .cleanNext =>
      match th.todo with
      | [] => none
      | (c, p) :: rest => setThread s t ({ th with todo := rest }, [.cleaned t .deleted c p])
    | op =>
      if userCode th then
        match op with
        | .create c d => newKey s c d
        | .destroy o =>
          match liveObj s o with
          | none => none
          | some ob => some (deleteKey s t o ob)
        | .get o =>
          match liveObj s o with
          | none => none
          | some ob => some (s, [.got t o ((getSpecific th ob.key).map Ptr.v)])
        | .reset o v =>
          match liveObj s o with
          | none => none
          | some ob => setThread s t (doReset t o ob th v)
        | .release o =>
          match liveObj s o with
          | none => none
          | some ob => setThread s t (doRelease t o ob th)
        -- add_thread_exit_callback, tss_pthread.cpp 113-125, and add_at_exit_entry, tss_manager.hpp 89-95
        | .atThreadExit id =>
          let c := ensureCtx th
          setThread s t ({ th with slot := some { c with atExit := c.atExit ++ [id] } }, [.registered t id])
        -- add_thread_exit_notify_entry, tss_pthread.cpp 99-111, and add_notify_at_exit_entry, tss_manager.hpp 97-103
        | .notifyAtExit n =>
          let c := ensureCtx th
          setThread s t ({ th with slot := some { c with notify := c.notify ++ [n] } }, [.notifyRegistered t n])
        | _ => none
      else none

end Verif.Tss
