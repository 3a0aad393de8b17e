import Verif.Model.WinCondVar

/-!
# The Windows condition variable: which values of `m_total_waiter_count` are loaded

Source: include/boost/sync/detail/condition_variables/basic_condition_variable_windows.hpp 136-470.

The steps are those of `Verif.WinCv`, but the loads of `m_total_waiter_count` (lines 172, 175, 184, 187) read a value it has had, and not one older than a value the
thread knows of.  The read-modify-write operations (lines 261, 305, 322, 341, 393, 408, 430, 460) read the newest value; they and the store of line 294 make a new value.
All of them are relaxed and publish nothing, so the acquire loads of lines 172 and 184 synchronise with nothing.
A thread learns of the writes by locking a mutex: what was known when `m_internal_mutex` or the user's lock was unlocked is known after locking it.

Simplifications, besides those of `Verif.WinCv`.  Threads also synchronise by other means (action `sync`), while neither is inside a function of the condition variable.
The destructor, which loads the counter in an assertion (line 152), is not included.
-/

namespace Verif.WinCvOrder

open WinCv (PC)

/-- `m_internal_mutex` (line 136), the user's lock. -/
inductive Lk
  | internal | user
  deriving DecidableEq, Repr

/-- What is observed: an event of `Verif.WinCv`; a value written to `m_total_waiter_count` (lines 261, 294, 305, 322, 341, 393, 408, 430, 460); locking and unlocking
(lines 118-128, 174, 186, 202, 214, 234, 286, 336, 346, 369, 388, 400, 425, 439, 452); synchronisation by the users' code. -/
inductive Ev
  | ev (t : Nat) (e : WinCv.Ev)
  | wrote (t : Nat) (v : Nat)
  | acq (t : Nat) (l : Lk)
  | rel (t : Nat) (l : Lk)
  | sync (t u : Nat)
  deriving DecidableEq, Repr

/-- The values `m_total_waiter_count` has had (line 142), which of them each thread has observed, and which are known to who locks a mutex. -/
structure Know where
  hist : List Nat
  pos : List Nat
  inside : Nat
  user : Nat
  deriving DecidableEq, Repr

/-- The members and threads (lines 136-142); what is known. -/
structure St where
  base : WinCv.St
  know : Know
  deriving DecidableEq, Repr

/-- Lines 145-148: the counter is initialised with 0. -/
def init (n : Nat) : St := ⟨WinCv.init n, ⟨[0], List.replicate n 0, 0, 0⟩⟩

/-- What is known from locking `l` (lines 118-128, 174, 186, 286 and others). -/
def Know.at (k : Know) : Lk → Nat
  | .internal => k.inside
  | .user => k.user

/-- What a thread knows of the counter (line 142). -/
def Know.of (k : Know) (t : Nat) : Nat := k.pos.getD t 0

/-- What is known after an event: a write (lines 261, 294, 305, 322, 341, 393, 408, 430, 460), locking, unlocking. -/
def Know.learn (k : Know) : Ev → Know
  | .ev _ _ => k
  | .wrote t v => { k with hist := k.hist ++ [v], pos := k.pos.set t k.hist.length }
  | .acq t l => { k with pos := k.pos.set t (max (k.of t) (k.at l)) }
  | .rel t .internal => { k with inside := max k.inside (k.of t) }
  | .rel t .user => { k with user := max k.user (k.of t) }
  | .sync t u => { k with pos := k.pos.set t (max (k.of t) (k.of u)) }

/-- What happens next: an action of `Verif.WinCv`; a load (lines 172, 175, 184, 187) reads the `i`-th value; the users' code learns what thread `u` knows. -/
inductive Act
  | op (a : WinCv.Act)
  | load (i : Nat)
  | sync (u : Nat)
  deriving DecidableEq, Repr

/-- The actions that do not load the counter: all but lines 172, 175, 184, 187. -/
def direct : PC → Bool
  | .nLoad _ | .nCheck _ => false
  | _ => true

/-- Whether the counter is written: lines 294, 305, 322 (a waiter is registered); 261 (a notification is decided); 341, 393, 408, 430, 460 (a waiter leaves without having
been notified). -/
def writes (pc : PC) (es : List WinCv.Ev) : Bool :=
  match pc, es with
  | .inExpired _, [] | .inFailed _, [] => true
  | _, [.registered _] => true
  | _, [.decided _ _ c] => c != 0
  | _, _ => false

/-- The events of the step of thread `t` from `s` to `b`, in which those of `Verif.WinCv` are `es`: lock operations (lines 118-128, 174, 186, 286 and others) and the write. -/
def events (t : Nat) (pc : PC) (s b : WinCv.St) (es : List WinCv.Ev) : List Ev :=
  (if s.owner ≠ some t ∧ b.owner = some t then [.acq t .internal] else []) ++
  (if s.user ≠ some t ∧ b.user = some t then [.acq t .user] else []) ++
  (if writes pc es then [.wrote t b.total] else []) ++
  es.map (.ev t) ++
  (if s.owner = some t ∧ b.owner ≠ some t then [.rel t .internal] else []) ++
  (if s.user = some t ∧ b.user ≠ some t then [.rel t .user] else [])

/-- Lines 172, 175, 184, 187 and 261, with the value `v` loaded: `Verif.WinCv.step` at `nLoad` and `nCheck`. -/
def loaded (s : WinCv.St) (t : Nat) (pc : PC) (v : Nat) : Option (WinCv.St × List WinCv.Ev) :=
  match pc with
  | .nLoad all =>
    if 0 < v then some ({ s with ths := s.ths.set t (.nEnter all) }, [])
    else some ({ s with ths := s.ths.set t .idle }, [.notified t])
  | .nCheck all =>
    if v = 0 then some ({ s with calls := s.calls + 1, ths := s.ths.set t .nExit }, [.decided t all 0])
    else
      let c := if all then v else 1
      some ({ s with total := s.total - c, calls := s.calls + 1, ths := s.ths.set t (.waking c) }, [.decided t all c])
  | _ => none

/-- One atomic action of thread `t` (lines 118-128, 170-237, 259-469). -/
def step : StepFn St (Nat × Act) Ev := fun s (t, a) =>
  match s.base.ths[t]? with
  | none => none
  | some pc =>
    match a with
    | .op a =>
      if direct pc then
        match WinCv.step s.base (t, a) with
        | none => none
        | some (b, es) => some (⟨b, (events t pc s.base b es).foldl Know.learn s.know⟩, events t pc s.base b es)
      else none
    | .load i =>
      match s.know.hist[i]? with
      | none => none
      | some v =>
        if s.know.of t ≤ i then
          match loaded s.base t pc v with
          | none => none
          | some (b, es) =>
            some (⟨b, (events t pc s.base b es).foldl Know.learn { s.know with pos := s.know.pos.set t i }⟩, events t pc s.base b es)
        else none
    | .sync u =>
      match s.base.ths[u]? with
      | some .idle => if pc = .idle then some ({ s with know := s.know.learn (.sync t u) }, [.sync t u]) else none
      | _ => none

end Verif.WinCvOrder
