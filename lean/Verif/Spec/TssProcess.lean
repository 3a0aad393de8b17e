import Verif.Model.TssProcess

/-! What is handed over to the library, what it does with it, and the calls that are allowed once the process is exiting. -/

namespace Verif.TssProcess

/-- The values stored under the keys from `k` on. -/
def vals : Nat → List (Option Nat) → List Item
  | _, [] => []
  | k, none :: l => vals (k + 1) l
  | k, some v :: l => .val k v :: vals (k + 1) l

/-- What a context holds. -/
def Ctx.items (c : Ctx) : List Item := vals 0 c.storage ++ c.atExit.map .cb ++ c.notify.map .ntf

/-- What has been taken from a context that is being destroyed and has not been dealt with. -/
def Phase.items : Phase → List Item
  | .atExit l => l.map .cb
  | .tls k l => vals k l
  | .notify l => l.map .ntf

/-- How often the library holds the item. -/
def held (x : Item) (s : St) : Nat :=
  (s.heap.map fun o => ((o.map Ctx.items).getD []).count x).sum +
  (s.threads.map fun th => ((th.job.map (·.ph.items)).getD []).count x).sum

/-- The item is handed over. -/
def isGave (x : Item) : Ev → Bool
  | .gave _ y => y = x
  | _ => false

/-- The item is dealt with: the value has been passed to the cleanup function of its key, or there is none; the callback has been called; the mutex has been unlocked. -/
def isSettled (x : Item) : Ev → Bool
  | .cleaned _ k v | .dropped _ k v => x = .val k v
  | .ran _ i => x = .cb i
  | .unlocked _ m => x = .ntf m
  | _ => false

/-- The item is destroyed without having been dealt with. -/
def isLost (x : Item) : Ev → Bool
  | .lost _ i => x = .cb i
  | _ => false

/-- How often the item has been handed over. -/
def given (x : Item) (tr : List Ev) : Nat := tr.countP (isGave x)

/-- How often the item has been dealt with. -/
def settled (x : Item) (tr : List Ev) : Nat := tr.countP (isSettled x)

/-- How often the item has been lost. -/
def lostIn (x : Item) (tr : List Ev) : Nat := tr.countP (isLost x)

/-- Whether the `thread_specific_ptr` that has the key has a cleanup function: as it was created last, unless it has been destroyed since. -/
def cleanupOf (k : Nat) (tr : List Ev) : Bool :=
  tr.foldl (fun b e => match e with
    | .key _ k' c => if k' = k then c else b
    | .deleted _ k' => if k' = k then false else b
    | _ => b) false

/-- The library finds no context for the thread. -/
def noCtx (tls : Bool) (s : St) (t : Nat) : Bool :=
  match s.threads[t]? with
  | some th => (!tls && s.keyFreed) || th.slot.isNone
  | none => true

/-- The library finds a context for the thread, and it exists. -/
def hasCtx (tls : Bool) (s : St) (t : Nat) : Bool :=
  match s.threads[t]? with
  | some ⟨some i, _⟩ => !(!tls && s.keyFreed) && (match s.heap[i]? with | some (some _) => true | _ => false)
  | _ => false

/-- The calls that are allowed once `on_process_exit` has been called. -/
def lateOk (tls : Bool) (s : St) (t : Nat) : Op → Bool
  | .next => true
  | .newKey _ | .deleteKey _ => false
  | .get _ => noCtx tls s t || hasCtx tls s t
  | .reset _ v => (noCtx tls s t && v.isNone) || hasCtx tls s t
  | .atThreadExit _ | .notifyAtExit _ => hasCtx tls s t
  | .threadExit => noCtx tls s t
  | .processExit => true

/-- No thread is in a hook. -/
def quiet (s : St) : Bool := s.threads.all (·.job.isNone)

/-- The thread is in a hook. -/
def inHook (s : St) (t : Nat) : Bool :=
  match s.threads[t]? with
  | some th => th.job.isSome
  | none => false

/-- `on_process_exit` is called when no thread is in a hook; while it runs nothing else happens but what the functions called by it do; and then only the calls
above are made. -/
def safe (tls : Bool) (s : St) (t : Nat) (op : Op) : Bool :=
  match s.mgr with
  | .absent | .live => op ≠ .processExit || quiet s
  | .dying => inHook s t && lateOk tls s t op
  | .gone => lateOk tls s t op

/-- Executions in which all calls are safe. -/
def stepS (tls : Bool) : StepFn St (Nat × Op) Ev := fun s l => if safe tls s l.1 l.2 then step tls s l else none

/-- A cleanup function called by the hook is running in the thread. -/
def inCleanup (s : St) (t : Nat) : Bool :=
  match s.threads[t]? with
  | some ⟨_, some ⟨_, .tls _ _, _, _⟩⟩ => true
  | _ => false

/-- Executions in which, moreover, cleanup functions called by the hooks do not register callbacks. -/
def stepQ (tls : Bool) : StepFn St (Nat × Op) Ev := fun s l =>
  match l.2 with
  | .atThreadExit _ => if inCleanup s l.1 then none else stepS tls s l
  | _ => stepS tls s l

end Verif.TssProcess
