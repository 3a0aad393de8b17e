import Verif.Model.CondVarPosix

/-!
# What users rely on when they use condition_variable

Everything is said in terms of the events: who owns the mutex, which wait a thread is in, and whether a change of the data
has been announced by `notify_all`.
-/

namespace Verif.CondVarPosix

variable {D : Type}

/-- The owner of the mutex, as told by the events. -/
def ownerUpd (o : Option Nat) : Ev D → Option Nat
  | .locked t | .relocked t => some t
  | .unlocked _ | .slept _ => none
  | _ => o

def ownerOf (tr : List (Ev D)) : Option Nat := tr.foldl ownerUpd none

/-- The wait a thread is in. -/
structure Call (D : Type) where
  kind : Kind
  pred : Option (D → Bool)
  /-- the time limit was reported to be reached -/
  expired : Bool
  /-- a notification has chosen the thread, or the system has woken it -/
  woken : Bool

def callUpd (t : Nat) (c : Option (Call D)) : Ev D → Option (Call D)
  | .called u k p => if u = t then some ⟨k, p, false, false⟩ else c
  | .ret u _ | .threw u => if u = t then none else c
  | .expired u => if u = t then c.map fun c => { c with expired := true } else c
  | .spurious u => if u = t then c.map fun c => { c with woken := true } else c
  | .notified _ _ ws => if t ∈ ws then c.map fun c => { c with woken := true } else c
  | _ => c

/-- The wait that thread `t` is in after these events. -/
def callOf (tr : List (Ev D)) (t : Nat) : Option (Call D) := tr.foldl (callUpd t) none

/-- The data, as told by the events. -/
def dataUpd (d : D) : Ev D → D
  | .updated _ d' => d'
  | _ => d

def dataOf (d₀ : D) (tr : List (Ev D)) : D := tr.foldl dataUpd d₀

/-- The data have been changed since the last `notify_all`. -/
def owedUpd (b : Bool) : Ev D → Bool
  | .updated _ _ => true
  | .notified _ true _ => false
  | _ => b

def owed (tr : List (Ev D)) : Bool := tr.foldl owedUpd false

/-- No wait with a time point of a user's clock. -/
def Ev.userClock : Ev D → Bool
  | .called _ .clocked _ => true
  | _ => false

/-- Thread `t` sleeps, and would return if it looked at the data. -/
def Forgotten (s : St D) (t : Nat) : Prop := ∃ k p, s.ths[t]? = some (.asleep k (some p)) ∧ p s.data = true

end Verif.CondVarPosix
