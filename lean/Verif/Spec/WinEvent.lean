import Verif.Model.WinEvent

/-!
# What users rely on when they use an event

An event is a flag.  `set` (`post`) makes it true, `reset` makes it false; a wait that succeeds finds it true and, if the event is an
auto-reset one, makes it false.
-/

namespace Verif.WinEvent

/-- The flag after one effect; `none`: the effect was not possible. -/
def flagUpd (manual : Bool) (f : Bool) : Ev → Option Bool
  | .didSet _ => some true
  | .didReset _ => some false
  | .took _ => if f then some manual else none
  | .sawUnset _ => if f then none else some false
  | _ => some f

/-- The flag after a history. -/
def flagOf (manual : Bool) (tr : List Ev) : Option Bool := tr.foldl (fun f e => f.bind (flagUpd manual · e)) (some false)

/-- What a call has done to the flag so far. -/
inductive Eff
  | set | reset | took | unset
  deriving DecidableEq, Repr

/-- The call that thread `t` is in, with its effects in order. -/
def callUpd (t : Nat) (c : Option (Op × List Eff)) : Ev → Option (Op × List Eff)
  | .called u op => if u = t then some (op, []) else c
  | .didSet u => if u = t then c.map fun c => (c.1, c.2 ++ [.set]) else c
  | .didReset u => if u = t then c.map fun c => (c.1, c.2 ++ [.reset]) else c
  | .took u => if u = t then c.map fun c => (c.1, c.2 ++ [.took]) else c
  | .sawUnset u => if u = t then c.map fun c => (c.1, c.2 ++ [.unset]) else c
  | .ret u _ => if u = t then none else c

def callOf (tr : List Ev) (t : Nat) : Option (Op × List Eff) := tr.foldl (callUpd t) none

/-- The longest finite timeout of an OS wait, in milliseconds. -/
def longest : Int := 4294967294

/-- What a call that ended with a result must have done: exactly the effect of the operation, and nothing if it failed.  A failed attempt
has seen the flag unset.  A wait for `ms` milliseconds that failed has waited as often as needed to wait that long, but at least once. -/
inductive Fits : Op → List Eff → Res → Prop
  | set : Fits .set [.set] .done
  | reset : Fits .reset [.reset] .done
  | wait : Fits .wait [.took] .done
  | tryYes : Fits .tryWait [.took] .yes
  | tryNo : Fits .tryWait [.unset] .no
  | relYes (ms : Int) (k : Nat) (h : k = 0 ∨ k * longest < ms) : Fits (.timedRel ms) (List.replicate k .unset ++ [.took]) .yes
  | relNo (ms : Int) (k : Nat) (h : ms ≤ (k + 1) * longest) (h' : k = 0 ∨ k * longest < ms) : Fits (.timedRel ms) (List.replicate (k + 1) .unset) .no
  | absYes : Fits .timedAbs [.took] .yes
  | absNo : Fits .timedAbs [.unset] .no
  | clockYes (k) : Fits .timedClock (List.replicate k .unset ++ [.took]) .yes
  | clockNo (k) : Fits .timedClock (List.replicate (k + 1) .unset) .no
  | threw (op k) : Fits op (List.replicate k .unset) .threw

end Verif.WinEvent
