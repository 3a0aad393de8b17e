import Verif.Base.LTS

/-!
# unique_lock, upgrade_lock, shared_lock

Models locks/unique_lock.hpp 54-305, locks/upgrade_lock.hpp 54-287 and locks/shared_lock.hpp 54-267 (the three classes are
line by line the same up to the names of the mutex functions, the conversions and the error messages; the lines below are
those of unique_lock.hpp unless stated otherwise).  Any number of lock objects of the three kinds refer to any number of
mutexes.  One step is one call of a member function; its arguments are part of the label, as is the answer of the mutex,
which is arbitrary (a lock function may also never return: then there is no step).  What the mutex does is seen in the trace:
`acquired`, `released`, `converted` are successful calls of the functions of the mutex.

Simplifications: the unlocking functions called by destructors do not throw (for these see `Verif.LocksThrow`); the three timed functions
(`timed_lock`, `try_lock_for`, `try_lock_until`) are one operation, the arguments being passed on unchanged.  The converting
constructors access private members of another class template, which does not declare them friends; they are modelled as
meant.
-/

namespace Verif.Locks

/-- The three classes: unique_lock.hpp 54-305, upgrade_lock.hpp 54-287, shared_lock.hpp 54-267. -/
inductive Kind
  | unique | upgrade | shared
  deriving DecidableEq, Repr

/-- A lock object: `m_mutex`, `m_is_locked` (lines 60-61). -/
structure Lock where
  kind : Kind
  mutex : Option Nat
  owns : Bool
  deriving DecidableEq, Repr

/-- The answer of the function of the mutex (called in lines 194, 206, 220, 234, 248, 261): `true` (or normal return), `false`, or an
exception. -/
inductive Ans
  | yes | no | throws
  deriving DecidableEq, Repr

/-- The exceptions of lines 189, 192, 201, 204, 256, 259 (and likewise in 211-251), and those of the mutex itself. -/
inductive Err
  /-- `errc::operation_not_permitted` -/
  | notPermitted
  /-- `errc::resource_deadlock_would_occur` -/
  | wouldDeadlock
  /-- exception thrown by the mutex -/
  | fromMutex
  deriving DecidableEq, Repr

/-- What a call does to the mutex and returns or throws (lines 67-298). -/
inductive Ev
  | acquired (k : Kind) (m : Nat)
  | released (k : Kind) (m : Nat)
  | converted (k k' : Kind) (m : Nat)
  /-- the user hands ownership to a lock object (`adopt_lock`) -/
  | adopted (k : Kind) (m : Nat)
  /-- `release()` of an owning lock object: the user is now responsible -/
  | handedOut (k : Kind) (m : Nat)
  | threw (e : Err)
  | retBool (b : Bool)
  | retMutex (m : Option Nat)
  /-- null pointer dereferenced -/
  | ub
  deriving DecidableEq, Repr

/-- `lock()`, 186-196; upgrade 168-178, shared 148-158. -/
def doLock (l : Lock) (a : Ans) : Option (Lock × List Ev) :=
  match l.mutex with
  | none => some (l, [.threw .notPermitted])
  | some m =>
    if l.owns then some (l, [.threw .wouldDeadlock])
    else match a with
      | .yes => some ({ l with owns := true }, [.acquired l.kind m])
      | .no => none
      | .throws => some (l, [.threw .fromMutex])

/-- `try_lock()`, 198-209, and `timed_lock`, `try_lock_for`, `try_lock_until`, 211-251; upgrade 180-233, shared 160-213. -/
def doTry (l : Lock) (a : Ans) : Option (Lock × List Ev) :=
  match l.mutex with
  | none => some (l, [.threw .notPermitted])
  | some m =>
    if l.owns then some (l, [.threw .wouldDeadlock])
    else match a with
      | .yes => some ({ l with owns := true }, [.acquired l.kind m, .retBool true])
      | .no => some ({ l with owns := false }, [.retBool false])
      | .throws => some (l, [.threw .fromMutex])

/-- `unlock()`, 253-263; upgrade 235-245, shared 215-225. -/
def doUnlock (l : Lock) (a : Ans) : Option (Lock × List Ev) :=
  match l.mutex with
  | none => some (l, [.threw .notPermitted])
  | some m =>
    if !l.owns then some (l, [.threw .notPermitted])
    else match a with
      | .yes => some ({ l with owns := false }, [.released l.kind m])
      | .no => none
      | .throws => some (l, [.threw .fromMutex])

/-- `~unique_lock()`, 167-171; upgrade 149-153, shared 122-126. -/
def destroyed (l : Lock) : List Ev :=
  if l.owns then
    match l.mutex with
    | none => [.ub]
    | some m => [.released l.kind m]
  else []

/-- `release()` as called inside the library, 282-288 (upgrade 264-270, shared 244-250): the lock object is emptied. -/
def emptied (l : Lock) : Lock := { l with mutex := none, owns := false }

/-- Form of a converting constructor: plain 105-111, with `try_to_lock` 114-147, with a duration or time point 149-165. -/
inductive Mode
  | plain | try_ | timed
  deriving DecidableEq, Repr

/-- Which conversions exist.  unique: 105, 114, 132, 150; upgrade: 105, 114, 132; shared: 106, 114. -/
def convertible : Mode → Kind → Kind → Bool
  | .plain, .upgrade, .unique => true
  | .try_, .upgrade, .unique => true
  | .try_, .shared, .unique => true
  | .timed, .shared, .unique => true
  | .plain, .unique, .upgrade => true
  | .try_, .shared, .upgrade => true
  | .timed, .shared, .upgrade => true
  | .plain, .unique, .shared => true
  | .plain, .upgrade, .shared => true
  | _, _, _ => false

/-- Converting constructor to kind `k`: the new object (`none` if the constructor throws), the source and the events.
Plain: 105-111; with `try_to_lock` or a timeout: 114-165. -/
def convert (mode : Mode) (k : Kind) (l : Lock) (a : Ans) : Option (Option Lock × Lock × List Ev) :=
  match mode with
  | .plain =>
    if l.owns then
      match l.mutex with
      | none => some (none, l, [.ub])
      | some m =>
        match a with
        | .yes => some (some ⟨k, some m, true⟩, emptied l, [.converted l.kind k m])
        | .no => none
        | .throws => some (none, l, [.threw .fromMutex])
    else some (some ⟨k, l.mutex, false⟩, emptied l, [])
  | _ =>
    if l.owns then
      match l.mutex with
      | none => some (none, l, [.ub])
      | some m =>
        match a with
        | .yes => some (some ⟨k, some m, true⟩, emptied l, [.converted l.kind k m])
        | .no => some (some ⟨k, none, false⟩, l, [])
        | .throws => some (none, l, [.threw .fromMutex])
    else some (some ⟨k, l.mutex, false⟩, emptied l, [])

/-- The member functions, by line; `ctorConvert`: 105-165; `destroy`: 167-171; `lock`: 186-196; `tryLock`: 198-209; `timedLock`:
211-251; `unlock`: 253-263. -/
inductive Op
  /-- 67-70 -/
  | ctorDefault (k : Kind)
  /-- 72-76 -/
  | ctorLock (k : Kind) (m : Nat)
  /-- 77-80 -/
  | ctorAdopt (k : Kind) (m : Nat)
  /-- 81-84 -/
  | ctorDefer (k : Kind) (m : Nat)
  /-- 85-89 -/
  | ctorTry (k : Kind) (m : Nat)
  /-- 91-96 -/
  | ctorTimed (k : Kind) (m : Nat)
  /-- 98-103 -/
  | ctorMove (j : Nat)
  | ctorConvert (mode : Mode) (k : Kind) (j : Nat)
  | destroy (i : Nat)
  | lock (i : Nat)
  | tryLock (i : Nat)
  | timedLock (i : Nat)
  | unlock (i : Nat)
  /-- 282-288 -/
  | release (i : Nat)
  /-- 290-298 -/
  | swap (i j : Nat)
  /-- `operator=` from the same kind, 173-177: it swaps -/
  | moveAssign (i j : Nat)
  /-- `operator=` from another kind, 179-184; upgrade 161-166; shared 134-146: converts into a temporary and swaps with it -/
  | convertAssign (i j : Nat)
  /-- `owns_lock()`, also `operator bool`, `!operator!`: 265-275 -/
  | ownsLock (i : Nat)
  /-- `mutex()`, 277-280 -/
  | mutex (i : Nat)
  deriving DecidableEq, Repr

/-- The lock objects created so far, each with the members of lines 60-61; `none`: destroyed (167-171). -/
abbrev St := List (Option Lock)

/-- Result of a constructor that calls a member function (lines 72-76, 85-96): if that throws, there is no object. -/
def constructed (s : St) : Option (Lock × List Ev) → Option (St × List Ev)
  | none => none
  | some (l, es) => if es.any (fun e => match e with | .threw _ => true | _ => false) then some (s, es) else some (s ++ [some l], es)

/-- Call of a member function changing only its object (lines 186-288). -/
def onObj (s : St) (i : Nat) (f : Lock → Option (Lock × List Ev)) : Option (St × List Ev) :=
  match s[i]? with
  | some (some l) =>
    match f l with
    | none => none
    | some (l', es) => some (s.set i (some l'), es)
  | _ => none

/-- `swap` (lines 290-298; upgrade_lock.hpp 272-280, shared_lock.hpp 252-260): both members are exchanged. -/
def swapObjs (s : St) (i j : Nat) : Option (St × List Ev) :=
  match s[i]?, s[j]? with
  | some (some l), some (some l') =>
    if l.kind = l'.kind then
      some ((s.set i (some { l with mutex := l'.mutex, owns := l'.owns })).set j (some { l' with mutex := l.mutex, owns := l.owns }), [])
    else none
  | _, _ => none

/-- One call of a member function: lines 67-298 (upgrade_lock.hpp 67-280, shared_lock.hpp 67-260). -/
def step : StepFn St (Op × Ans) Ev := fun s (op, a) =>
  match op with
  | .ctorDefault k => some (s ++ [some ⟨k, none, false⟩], [])
  | .ctorLock k m => constructed s (doLock ⟨k, some m, false⟩ a)
  | .ctorAdopt k m => some (s ++ [some ⟨k, some m, true⟩], [.adopted k m])
  | .ctorDefer k m => some (s ++ [some ⟨k, some m, false⟩], [])
  | .ctorTry k m => constructed s (doTry ⟨k, some m, false⟩ a)
  | .ctorTimed k m => constructed s (doTry ⟨k, some m, false⟩ a)
  | .ctorMove j =>
    match s[j]? with
    | some (some l) => some (s.set j (some (emptied l)) ++ [some l], [])
    | _ => none
  | .ctorConvert mode k j =>
    match s[j]? with
    | some (some l) =>
      if convertible mode l.kind k then
        match convert mode k l a with
        | none => none
        | some (none, l', es) => some (s.set j (some l'), es)
        | some (some n, l', es) => some (s.set j (some l') ++ [some n], es)
      else none
    | _ => none
  | .destroy i =>
    match s[i]? with
    | some (some l) => some (s.set i none, destroyed l)
    | _ => none
  | .lock i => onObj s i (doLock · a)
  | .tryLock i => onObj s i (doTry · a)
  | .timedLock i => onObj s i (doTry · a)
  | .unlock i => onObj s i (doUnlock · a)
  | .release i => onObj s i fun l =>
      some (emptied l, (match l.owns, l.mutex with | true, some m => [Ev.handedOut l.kind m] | _, _ => []) ++ [.retMutex l.mutex])
  | .swap i j => swapObjs s i j
  | .moveAssign i j => swapObjs s i j
  | .convertAssign i j =>
    match s[i]?, s[j]? with
    | some (some old), some (some l) =>
      if convertible .plain l.kind old.kind then
        match convert .plain old.kind l a with
        | none => none
        | some (none, l', es) => some (s.set j (some l'), es)
        -- the temporary holds the old members and is destroyed
        | some (some n, l', es) => some ((s.set j (some l')).set i (some n), es ++ destroyed old)
      else none
    | _, _ => none
  | .ownsLock i => onObj s i fun l => some (l, [.retBool l.owns])
  | .mutex i => onObj s i fun l => some (l, [.retMutex l.mutex])

end Verif.Locks
