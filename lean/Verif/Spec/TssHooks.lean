import Verif.Model.TssHooks
import Verif.Spec.TssProcess

/-! When the hooks have to be called (tss_windows_hooks.hpp), and executions in which they are called by the loader only. -/

namespace Verif.TssHooks

open TssProcess (St Op Ev)

/-- Only threads start and end. -/
def threadsOnly (hs : List Happening) : Prop := ∀ h ∈ hs, ∃ t, h = .threadStart t ∨ h = .threadEnd t

/-- A thread that ends calls `on_thread_exit`. -/
def ThreadsLeave (l : List (Happening × List Hook)) : Prop := ∀ t hs, (.threadEnd t, hs) ∈ l → .threadExit ∈ hs

/-- The thread that ends the process calls `on_thread_exit` and, after that, `on_process_exit`. -/
def ProcessLeaves (l : List (Happening × List Hook)) : Prop :=
  ∀ t hs, (.finish t, hs) ∈ l → ∃ a c, hs = a ++ .processExit :: c ∧ .threadExit ∈ a

/-- No `on_thread_exit` after an `on_process_exit`. -/
def InOrder (l : List (Happening × List Hook)) : Prop :=
  ∀ a c, (l.map (·.2)).flatten = a ++ .processExit :: c → .threadExit ∉ c

/-- No `on_process_enter` after an `on_thread_enter`. -/
def EnterFirst (l : List (Happening × List Hook)) : Prop :=
  ∀ a c, (l.map (·.2)).flatten = a ++ .threadEnter :: c → .processEnter ∉ c

/-- The contract: the hooks that "must not be omitted" are called, and in order. -/
def Contract (l : List (Happening × List Hook)) : Prop := ThreadsLeave l ∧ ProcessLeaves l ∧ InOrder l ∧ EnterFirst l

/-- The call of the hook by the thread is one of the log. -/
def calls (l : List (Happening × List Hook)) (t : Nat) (h : Hook) : Bool := l.any fun e => e.1.thread = t && e.2.contains h

/-- Executions in which `on_thread_exit` and `on_process_exit` are called only by threads that do so in the log. -/
def stepL (l : List (Happening × List Hook)) (tls : Bool) : StepFn St (Nat × Op) Ev := fun s x =>
  match x.2 with
  | .threadExit => if calls l x.1 .threadExit then TssProcess.step tls s x else none
  | .processExit => if calls l x.1 .processExit then TssProcess.step tls s x else none
  | _ => TssProcess.step tls s x

end Verif.TssHooks
