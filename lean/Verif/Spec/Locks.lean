import Verif.Model.Locks

/-! # Ownership accounting for lock objects -/

namespace Verif.Locks

/-- Change of the number of `k`-ownerships of mutex `m` as seen by the mutex. -/
def mutexNet (k : Kind) (m : Nat) : Ev → Int
  | .acquired k' m' => if k' = k ∧ m' = m then 1 else 0
  | .released k' m' => if k' = k ∧ m' = m then -1 else 0
  | .converted k₁ k₂ m' => (if k₂ = k ∧ m' = m then 1 else 0) - (if k₁ = k ∧ m' = m then 1 else 0)
  | _ => 0

/-- Change of the number of those ownerships the user has entrusted to lock objects without a call of the mutex. -/
def userNet (k : Kind) (m : Nat) : Ev → Int
  | .adopted k' m' => if k' = k ∧ m' = m then 1 else 0
  | .handedOut k' m' => if k' = k ∧ m' = m then -1 else 0
  | _ => 0

def total (f : Ev → Int) : List Ev → Int
  | [] => 0
  | e :: tr => f e + total f tr

/-- The object reports to own mutex `m` (`owns_lock()` and `mutex()`). -/
def Owns (k : Kind) (m : Nat) (o : Option Lock) : Bool :=
  match o with
  | some l => decide (l.kind = k) && decide (l.mutex = some m) && l.owns
  | none => false

/-- Number of live objects owning `m`. -/
def owners (k : Kind) (m : Nat) (s : St) : Nat := s.countP (Owns k m)

/-- Wrong uses and the documented errors. -/
inductive Misuse : Lock → (Nat → Op) → Err → Prop
  | lockNoMutex {l} : l.mutex = none → Misuse l .lock .notPermitted
  | tryNoMutex {l} : l.mutex = none → Misuse l .tryLock .notPermitted
  | timedNoMutex {l} : l.mutex = none → Misuse l .timedLock .notPermitted
  | unlockNoMutex {l} : l.mutex = none → Misuse l .unlock .notPermitted
  | lockTwice {l m} : l.mutex = some m → l.owns = true → Misuse l .lock .wouldDeadlock
  | tryTwice {l m} : l.mutex = some m → l.owns = true → Misuse l .tryLock .wouldDeadlock
  | timedTwice {l m} : l.mutex = some m → l.owns = true → Misuse l .timedLock .wouldDeadlock
  | unlockNotOwning {l} : l.owns = false → Misuse l .unlock .notPermitted

/-- The objects an operation is applied to. -/
def Op.objects : Op → List Nat
  | .ctorMove j | .ctorConvert _ _ j => [j]
  | .destroy i | .lock i | .tryLock i | .timedLock i | .unlock i | .release i | .ownsLock i | .mutex i => [i]
  | .swap i j | .moveAssign i j | .convertAssign i j => [i, j]
  | _ => []

end Verif.Locks
