import Verif.Model.TssAlloc

/-! What a failed call must not change, and what a successful one must do. -/

namespace Verif.TssAlloc

/-- The context of a thread, if it has one. -/
def ctxOf (s : St) (t : Nat) : Option Ctx := (s.slots[t]?).join

/-- The value thread `t` finds for key `k`. -/
def valueOf (s : St) (t k : Nat) : Option Nat := ((ctxOf s t).bind (·.storage[k]?)).join

/-- The callbacks that will be called when thread `t` exits, in the order of registration. -/
def callbacksOf (s : St) (t : Nat) : List Nat := ((ctxOf s t).map (·.atExit)).getD []

/-- The mutexes that will be unlocked when thread `t` exits. -/
def notifsOf (s : St) (t : Nat) : List Nat := ((ctxOf s t).map (·.notify)).getD []

/-- Nothing has changed for anybody, and nothing has been leaked. -/
structure Same (s s' : St) : Prop where
  values : ∀ t k, valueOf s' t k = valueOf s t k
  callbacks : ∀ t, callbacksOf s' t = callbacksOf s t
  notifs : ∀ t, notifsOf s' t = notifsOf s t
  functors : s'.functors = s.functors
  locked : s'.locked = s.locked
  table : s'.table = s.table
  freed : s'.freed = s.freed
  lost : s'.lost = s.lost

/-- The thread whose context the call may have to create. -/
def Op.creator : Op → Option Nat
  | .reset t _ _ | .release t _ | .atThreadExit t | .notifyAtExit t _ => some t
  | .newKey _ | .deleteKey _ | .exit _ => none

/-- The context can be stored, and either the thread has one or locking the mutex of the manager works. -/
def Sound (s : St) (op : Op) (f : Fails) : Prop :=
  ∀ t, op.creator = some t → ctxOf s t = none → f.lock = false ∧ f.slot = false

/-- The function objects handed over in the trace. -/
def keptIn (tr : List Ev) : List Nat := tr.filterMap fun | .kept i => some i | _ => none

/-- The function objects called in the trace. -/
def calledIn (tr : List Ev) : List Nat := tr.filterMap fun | .called i => some i | _ => none

/-- The state after a successful call. -/
def Effect (s : St) (op : Op) (es : List Ev) (s' : St) : Prop :=
  match op with
  | .reset t k v =>
    (∀ u j, valueOf s' u j = if u = t ∧ j = k then v else valueOf s u j) ∧
    (∀ u, callbacksOf s' u = callbacksOf s u ∧ notifsOf s' u = notifsOf s u) ∧
    es = (if valueOf s t k ≠ v ∧ s.table[k]? = some true then ((valueOf s t k).map Ev.cleaned).toList else [])
  | .release t k =>
    (∀ u j, valueOf s' u j = if u = t ∧ j = k then none else valueOf s u j) ∧
    (∀ u, callbacksOf s' u = callbacksOf s u ∧ notifsOf s' u = notifsOf s u) ∧ es = [.ptr (valueOf s t k)]
  | .atThreadExit t =>
    (∀ u j, valueOf s' u j = valueOf s u j) ∧ (∀ u, notifsOf s' u = notifsOf s u) ∧
    ∃ i, i ∉ s.functors ∧ es = [.kept i] ∧ s'.functors = i :: s.functors ∧
      ∀ u, callbacksOf s' u = if u = t then callbacksOf s u ++ [i] else callbacksOf s u
  | .notifyAtExit t m =>
    (∀ u j, valueOf s' u j = valueOf s u j) ∧ (∀ u, callbacksOf s' u = callbacksOf s u) ∧ es = [] ∧ s'.locked = m :: s.locked ∧
    ∀ u, notifsOf s' u = if u = t then notifsOf s u ++ [m] else notifsOf s u
  | .newKey c =>
    (∀ u j, valueOf s' u j = valueOf s u j) ∧ (∀ u, callbacksOf s' u = callbacksOf s u ∧ notifsOf s' u = notifsOf s u) ∧
    ∃ k, es = [.key k] ∧ (k ∈ s.freed ∨ s.table.length ≤ k) ∧ (∀ u, valueOf s' u k = none) ∧ k ∉ s'.freed ∧ s'.table[k]? = some c ∧
      ∀ j, j ≠ k → s'.table[j]? = s.table[j]? ∧ (j ∈ s'.freed ↔ j ∈ s.freed)
  | .deleteKey k =>
    (∀ u j, valueOf s' u j = if j = k then none else valueOf s u j) ∧
    (∀ u, callbacksOf s' u = callbacksOf s u ∧ notifsOf s' u = notifsOf s u) ∧ k ∈ s'.freed ∧
    (∀ c ∈ s'.lost, (c.storage[k]?).join = none) ∧
    es = (if s.table[k]? = some true then
      (((List.range s.slots.length).filterMap fun u => valueOf s u k) ++ s.lost.filterMap fun c => (c.storage[k]?).join).map .cleaned
      else []) ∧
    ∀ j, j ≠ k → s'.table[j]? = s.table[j]? ∧ (j ∈ s'.freed ↔ j ∈ s.freed)
  | .exit t =>
    (∀ u, ctxOf s' u = if u = t then none else ctxOf s u) ∧ s'.table = s.table ∧ s'.freed = s.freed ∧ s'.lost = s.lost ∧
    es = (callbacksOf s t).reverse.map .called ++
      ((List.range s.table.length).filterMap fun k => if s.table[k]? = some true then valueOf s t k else none).map .cleaned ++
      (notifsOf s t).map .unlocked

end Verif.TssAlloc
