import Verif.Proof.AloneLemmas
import Verif.Props.SpinMutex
import Verif.Props.SharedSpinProgress
import Verif.Proof.WinMutexWord
import Verif.Proof.WinMutex
import Verif.Spec.WinMutex

/-!
# Functions that do not wait return although all other threads stand still (C111)

`Call step Fair t goal a k s` says that thread `t` can make the call `a` in the state `s`, and that the goal is then reached after at most
`k` steps of that thread; `Within` is the same for a thread that is already inside the function.
-/

namespace Verif.Spin

open Verif.Spec.Alone

/-- **C111** (spin mutex, both implementations).  `try_lock()` and `unlock()` return after one step, in every state. -/
theorem C111_returns (v : Variant) (s : St) (t : Nat) (th : Th) (ht : s.ths[t]? = some th) :
    (th.pc = .idle → Call (step v) Fair t (fun _ es => ∃ b, es = [.tried t b]) .callTry 1 s) ∧
    (th.pc = .tryXchg → Within (step v) Fair t (fun _ es => ∃ b, es = [.tried t b]) 1 s) ∧
    (th.pc = .owner → Call (step v) Fair t (fun _ es => es = [.unlocked t]) .callUnlock 1 s) ∧
    (th.pc = .unlocking → Within (step v) Fair t (fun _ es => es = [.unlocked t]) 1 s) := by
  obtain ⟨pc, view⟩ := th
  refine ⟨?_, Al.tryLock ht, ?_, Al.unlock ht⟩ <;> rintro rfl
  · exact ⟨_, _, by simp only [step, ht]; rfl, Al.tryLock (get_set ht) rfl⟩
  · exact ⟨_, _, by simp only [step, ht]; rfl, Al.unlock (get_set ht) rfl⟩

/-- **C111** (spin mutex).  `lock()` returns after at most two steps if nobody owns the mutex. -/
theorem C111_lock (v : Variant) (n : Nat) (tr : List Ev) (s : St) (h : Exec (step v) (init n) tr s) (hfree : ∀ i, holds tr i = false)
    (t : Nat) (th : Th) (ht : s.ths[t]? = some th) :
    (th.pc = .idle → Call (step v) Fair t (fun _ es => es = [.locked t]) .callLock 2 s) ∧
    (th.pc = .lockSpin ∨ th.pc = .lockXchg → Within (step v) Fair t (fun _ es => es = [.locked t]) 2 s) := by
  have I := inv_exec h
  have A := agree_exec h
  have hz : s.ths.countP Th.owns = 0 := by
    apply countP_eq_zero_of_forall
    intro i x hx
    have := hfree i
    rw [A i, hx] at this
    exact this
  have hv : s.word.val = true := by
    have := I.excl
    cases hv : s.word.val with
    | true => rfl
    | false => rw [hv, hz] at this; simp at this
  obtain ⟨pc, view⟩ := th
  refine ⟨?_, ?_⟩
  · rintro rfl
    cases v
    · refine ⟨_, _, by simp only [step, ht]; rfl, ?_⟩; exact Al.spin (get_set ht) rfl hv
    · refine ⟨_, _, by simp only [step, ht]; rfl, ?_⟩; refine Within.mono (k := 1) ?_ (by omega); exact Al.xchg (get_set ht) rfl hv
  · rintro (hpc | hpc)
    · exact Al.spin ht hpc hv
    · exact (Al.xchg ht hpc hv).mono (by omega)

/-- Thread 1 is suspended inside `lock()`; thread 0 locks, unlocks and locks again. -/
example : ∃ s, runFrom (step .boolTTS) (init 2)
    [(1, .callLock), (0, .callLock), (0, .go true), (0, .go true), (0, .callUnlock), (0, .go true), (0, .callLock)] =
      some (s, [.locked 0, .unlocked 0]) ∧ ∃ th, s.ths[0]? = some th ∧ th.pc = .lockSpin := ⟨_, rfl, _, rfl, rfl⟩

end Verif.Spin

namespace Verif.SharedSpin

open Verif.Spec.Alone

/-- **C111** (shared spin mutex).  `try_lock()`, `unlock()`, `try_lock_shared()` and `unlock_shared()` return after one or two steps, in every state. -/
theorem C111_returns (s : St) (t : Nat) (th : Th) (ht : s.ths[t]? = some th) :
    (th.pc = .idle → Call step Fair t (fun _ es => ∃ b, es = [.tried t b]) .callTry 1 s) ∧
    (th.pc = .tryCas → Within step Fair t (fun _ es => ∃ b, es = [.tried t b]) 1 s) ∧
    (th.pc = .idle → Call step Fair t (fun _ es => ∃ b, es = [.triedShared t b]) .callTryShared 2 s) ∧
    (th.pc = .trySharedLoad ∨ (∃ cur, th.pc = .trySharedCas cur) → Within step Fair t (fun _ es => ∃ b, es = [.triedShared t b]) 2 s) ∧
    (th.pc = .owner → Call step Fair t (fun _ es => es = [.unlocked t]) .callUnlock 1 s) ∧
    (th.pc = .unlocking → Within step Fair t (fun _ es => es = [.unlocked t]) 1 s) ∧
    (th.pc = .sharer → Call step Fair t (fun _ es => es = [.unlockedShared t]) .callUnlockShared 1 s) ∧
    (th.pc = .sharedUnlocking → Within step Fair t (fun _ es => es = [.unlockedShared t]) 1 s) := by
  obtain ⟨pc, view⟩ := th
  refine ⟨?_, Al.tryLock ht, ?_, ?_, ?_, Al.unlock ht, ?_, Al.unlockShared ht⟩
  · rintro rfl; exact ⟨_, _, by simp only [step, ht]; rfl, Al.tryLock (get_set ht) rfl⟩
  · rintro rfl; exact ⟨_, _, by simp only [step, ht]; rfl, Al.tryShared (get_set ht) rfl⟩
  · rintro (hpc | ⟨cur, hpc⟩)
    · exact Al.tryShared ht hpc
    · exact (Al.trySharedCas ht hpc).mono (by omega)
  · rintro rfl; exact ⟨_, _, by simp only [step, ht]; rfl, Al.unlock (get_set ht) rfl⟩
  · rintro rfl; exact ⟨_, _, by simp only [step, ht]; rfl, Al.unlockShared (get_set ht) rfl⟩

/-- **C111** (shared spin mutex).  `lock()` returns after at most two steps if nobody owns the mutex. -/
theorem C111_lock (n : Nat) (tr : List Ev) (s : St) (h : Exec step (init n) tr s) (hfree : ∀ i, ownership tr i = .none)
    (t : Nat) (th : Th) (ht : s.ths[t]? = some th) :
    (th.pc = .idle → Call step Fair t (fun _ es => es = [.locked t]) .callLock 2 s) ∧
    (th.pc = .lockSpin ∨ th.pc = .lockCas → Within step Fair t (fun _ es => es = [.locked t]) 2 s) := by
  have hw := (free_iff h).mpr hfree
  obtain ⟨pc, view⟩ := th
  refine ⟨?_, Al.lock hw ht⟩
  rintro rfl
  refine ⟨_, _, by simp only [step, ht]; rfl, ?_⟩; exact Al.lock hw (get_set ht) (.inl rfl)

/-- **C111** (shared spin mutex).  `lock_shared()` returns after at most four steps if nobody owns the mutex exclusively and fewer than 2^31
threads share it. -/
theorem C111_lock_shared (n : Nat) (tr : List Ev) (s : St) (h : Exec step (init n) tr s) (hfree : ∀ i, ownership tr i ≠ .exclusive)
    (hcnt : s.ths.countP Th.isSh < 2 ^ 31) (t : Nat) (th : Th) (ht : s.ths[t]? = some th) :
    (th.pc = .idle → Call step Fair t (fun _ es => es = [.lockedShared t]) .callLockShared 4 s) ∧
    (th.pc = .sharedSpin ∨ th.pc = .sharedLoad ∨ (∃ cur, th.pc = .sharedCas cur) →
      Within step Fair t (fun _ es => es = [.lockedShared t]) 4 s) := by
  have hm := masked_eq h hfree hcnt
  have hw : s.word.val ≠ lockedState := by
    intro e
    rw [e] at hm
    exact absurd hm (by decide)
  obtain ⟨pc, view⟩ := th
  refine ⟨?_, ?_⟩
  · rintro rfl
    refine ⟨_, _, by simp only [step, ht]; rfl, ?_⟩; exact Al.lockShared hm hw (get_set ht) rfl
  · intro hpc
    refine Al.lockShared hm hw ht ?_
    rcases hpc with hpc | hpc | ⟨cur, hpc⟩ <;> simp only at hpc <;> subst hpc <;> rfl

/-- Thread 1 owns in shared mode, thread 2 is suspended inside `lock()`. -/
example : ∃ s, runFrom step (init 3) [(1, .callLockShared), (1, .load 0), (1, .load 0), (1, .go), (2, .callLock)] = some (s, [.lockedShared 1]) ∧
    s.ths.countP Th.isSh < 2 ^ 31 ∧ ∃ th, s.ths[0]? = some th ∧ th.pc = .idle := ⟨_, rfl, by decide, _, rfl, rfl⟩

end Verif.SharedSpin

namespace Verif.WinMutex

open Verif.Spec.Alone

/-- **C111** (mutexes of Windows).  `try_lock()` returns after one step and `unlock()` after at most three, in every state. -/
theorem C111_returns (s : St) (t : Nat) (th : Th) (ht : s.ths[t]? = some th) :
    (th.pc = .idle → Call step Fair t (fun _ es => Ended t es) (.call .tryOnly) 1 s) ∧
    (th.pc = .tryBts .tryOnly → Within step Fair t (fun _ es => Ended t es) 1 s) ∧
    (th.pc = .owner → Call step Fair t (fun s' _ => Outside t s') .callUnlock 3 s) ∧
    (th.pc = .unlAdd ∨ th.pc = .unlBts ∨ th.pc = .unlSet → Within step Fair t (fun s' _ => Outside t s') 3 s) := by
  obtain ⟨pc, view⟩ := th
  refine ⟨?_, Al.tryLock ht, ?_, ?_⟩
  · rintro rfl; exact ⟨_, _, by simp only [step, ht]; rfl, Al.tryLock (get_set ht) rfl⟩
  · rintro rfl; exact ⟨_, _, by simp only [step, ht]; rfl, Al.unlock (get_set ht) rfl⟩
  · intro hpc
    refine Al.unlock ht ?_
    rcases hpc with hpc | hpc | hpc <;> simp only at hpc <;> subst hpc <;> rfl

/-- **C111** (mutexes of Windows).  In every state `lock()` and the timed functions return, or reach the wait for the event, after at most three steps. -/
theorem C111_enters (s : St) (t : Nat) (th : Th) (ht : s.ths[t]? = some th) :
    (∀ k, th.pc = .idle → Call step Fair t (fun s' es => Ended t es ∨ Waits t s') (.call k) 3 s) ∧
    (Al.entering th.pc = true → Within step Fair t (fun s' es => Ended t es ∨ Waits t s') 3 s) := by
  obtain ⟨pc, view⟩ := th
  refine ⟨?_, Al.enter ht⟩
  rintro k rfl
  exact ⟨_, _, by simp only [step, ht]; rfl, Al.enter (get_set ht) rfl⟩

/-- **C111** (mutexes of Windows).  If nobody owns the mutex, a thread that calls one of the functions, or is inside one but not in the wait for the event
(or giving up after it), returns after at most two steps, without waiting for the event. -/
theorem C111_free (n : Nat) (hn : n < 2 ^ 30) (tr : List Ev) (s : St) (h : Exec step (init n) tr s) (hfree : ∀ i, holds tr i = false)
    (t : Nat) (th : Th) (ht : s.ths[t]? = some th) :
    (∀ k, th.pc = .idle → Call step Fair t (fun _ es => Ended t es) (.call k) 2 s) ∧
    (Al.acquiring th.pc = true → Within step Fair t (fun _ es => Ended t es) 2 s) := by
  have hw : isLocked s.word.val = false := by
    rw [isLocked_false, (inv_exec hn h).lock]
    exact (agree_exec h).none hfree
  obtain ⟨pc, view⟩ := th
  refine ⟨?_, Al.acquire hw ht⟩
  rintro k rfl
  refine ⟨_, _, by simp only [step, ht]; rfl, ?_⟩; exact Al.acquire hw (get_set ht) rfl

/-- Thread 1 is suspended in `unlock()` before it sets the event, thread 2 in the wait for it; thread 0 can lock the mutex. -/
example : ∃ s tr, runFrom step (init 3) [(1, .call .lock), (1, .go), (2, .call .lock), (2, .go), (2, .go), (2, .go), (1, .callUnlock), (1, .go)] =
    some (s, tr) ∧ (∀ i, holds tr i = false) ∧ ∃ th, s.ths[0]? = some th ∧ th.pc = .idle := by
  refine ⟨_, _, rfl, ?_, _, rfl, rfl⟩
  intro i
  simp [holds, holdsUpd]

end Verif.WinMutex

namespace Verif.AutoFutex

open Verif.Spec.Alone

/-- **C111** (futex `auto_reset_event`).  `post()` returns after at most three steps and `try_wait()` after at most two, in every state. -/
theorem C111_returns (s : St) (t : Nat) (th : Th) (ht : s.ths[t]? = some th) :
    (th.pc = .idle → Call step Fair t (fun _ es => .postDone t ∈ es) (.call .post) 3 s) ∧
    (th.pc = .postLoad ∨ (∃ old, th.pc = .postLoop old) ∨ th.pc = .postSignal → Within step Fair t (fun _ es => .postDone t ∈ es) 3 s) ∧
    (th.pc = .idle → Call step Fair t (fun _ es => ∃ b, .tryDone t b ∈ es) (.call .tryWait) 2 s) ∧
    (th.pc = .tryLoad .tryOnly ∨ (∃ old, th.pc = .tryLoop .tryOnly old) → Within step Fair t (fun _ es => ∃ b, .tryDone t b ∈ es) 2 s) := by
  obtain ⟨pc, view⟩ := th
  refine ⟨?_, ?_, ?_, ?_⟩
  · rintro rfl; exact ⟨_, _, by simp only [step, ht]; rfl, Al.post (get_set ht) rfl⟩
  · intro hpc
    refine Al.post ht ?_
    rcases hpc with hpc | ⟨old, hpc⟩ | hpc <;> simp only at hpc <;> subst hpc <;> rfl
  · rintro rfl; exact ⟨_, _, by simp only [step, ht]; rfl, Al.tryWait (get_set ht) rfl⟩
  · intro hpc
    refine Al.tryWait ht ?_
    rcases hpc with hpc | ⟨old, hpc⟩ <;> simp only at hpc <;> subst hpc <;> rfl

/-- **C111** (futex `auto_reset_event`).  In every state `wait()` and the timed waits return, or fall asleep in the system, after at most eleven steps. -/
theorem C111_enters (s : St) (t : Nat) (th : Th) (ht : s.ths[t]? = some th) :
    (th.pc = .idle → Call step Fair t (fun s' es => Ended t es ∨ Sleeps t s') (.call .wait) 11 s ∧
      Call step Fair t (fun s' es => Ended t es ∨ Sleeps t s') (.call .timedWait) 11 s) ∧
    (Al.waiting th.pc = true → Within step Fair t (fun s' es => Ended t es ∨ Sleeps t s') 11 s) := by
  obtain ⟨pc, view⟩ := th
  refine ⟨?_, Al.wait ht⟩
  rintro rfl
  exact ⟨⟨_, _, by simp only [step, ht]; rfl, Al.wait (get_set ht) rfl⟩, ⟨_, _, by simp only [step, ht]; rfl, Al.wait (get_set ht) rfl⟩⟩

/-- Thread 1 is asleep, thread 2 is suspended in `post()` before it wakes somebody; thread 0 calls `post()`. -/
example : ∃ s, (runFrom step (init 3) [(1, .call .wait), (1, .load 0), (1, .go), (1, .go), (1, .go), (1, .go),
    (2, .call .post), (2, .load 1), (2, .go), (0, .call .post)]).map Prod.fst = some s ∧ Sleeps 1 s ∧ ∃ th, s.ths[0]? = some th ∧ th.pc = .postLoad :=
  ⟨_, rfl, ⟨_, rfl, rfl⟩, _, rfl, rfl⟩

end Verif.AutoFutex

namespace Verif.ManualFutex

open Verif.Spec.Alone

/-- **C111** (futex `manual_reset_event`).  `set()` returns after at most two steps, `reset()` and `try_wait()` after one, in every state. -/
theorem C111_returns (s : St) (t : Nat) (th : Th) (ht : s.ths[t]? = some th) :
    (th.pc = .idle → Call step Fair t (fun _ es => .setDone t ∈ es) (.call .set) 2 s) ∧
    (th.pc = .setOr ∨ th.pc = .setWake → Within step Fair t (fun _ es => .setDone t ∈ es) 2 s) ∧
    (th.pc = .idle → Call step Fair t (fun _ es => .resetDone t ∈ es) (.call .reset) 1 s) ∧
    (th.pc = .resetAnd → Within step Fair t (fun _ es => .resetDone t ∈ es) 1 s) ∧
    (th.pc = .idle → Call step Fair t (fun _ es => ∃ b, .tryDone t b ∈ es) (.call .tryWait) 1 s) ∧
    (th.pc = .tryLoad .tryOnly → Within step Fair t (fun _ es => ∃ b, .tryDone t b ∈ es) 1 s) := by
  obtain ⟨pc, view⟩ := th
  refine ⟨?_, ?_, ?_, Al.reset ht, ?_, Al.tryWait ht⟩
  · rintro rfl; exact ⟨_, _, by simp only [step, ht]; rfl, Al.set (get_set ht) rfl⟩
  · intro hpc
    refine Al.set ht ?_
    rcases hpc with hpc | hpc <;> simp only at hpc <;> subst hpc <;> rfl
  · rintro rfl; exact ⟨_, _, by simp only [step, ht]; rfl, Al.reset (get_set ht) rfl⟩
  · rintro rfl; exact ⟨_, _, by simp only [step, ht]; rfl, Al.tryWait (get_set ht) rfl⟩

/-- **C111** (futex `manual_reset_event`).  `wait()` and the timed waits return, or fall asleep in the system, after at most four steps. -/
theorem C111_enters (n : Nat) (s : St) (h : Reachable step (init n) s) (t : Nat) (th : Th) (ht : s.ths[t]? = some th) :
    (th.pc = .idle → Call step Fair t (fun s' es => Ended t es ∨ Sleeps t s') (.call .wait) 4 s ∧
      Call step Fair t (fun s' es => Ended t es ∨ Sleeps t s') (.call .timedWait) 4 s) ∧
    (Al.waiting th.pc = true → Within step Fair t (fun s' es => Ended t es ∨ Sleeps t s') 4 s) := by
  have hF := fresh_reach h
  obtain ⟨pc, view⟩ := th
  refine ⟨?_, Al.wait hF ht⟩
  rintro rfl
  have h1 : step s (t, .call .wait) = some ({ s with ths := s.ths.set t ⟨.tryLoad .wait, view⟩ }, [.called t .wait]) := by
    simp only [step, ht]
  have h2 : step s (t, .call .timedWait) = some ({ s with ths := s.ths.set t ⟨.tryLoad .timed, view⟩ }, [.called t .timedWait]) := by
    simp only [step, ht]
  exact ⟨⟨_, _, h1, Al.wait (fresh_step hF h1) (get_set ht) rfl⟩, ⟨_, _, h2, Al.wait (fresh_step hF h2) (get_set ht) rfl⟩⟩

/-- Thread 1 is asleep and thread 2 is suspended in `set()` before it wakes it; thread 0 calls `wait()`. -/
example : ∃ s, (runFrom step (init 3) [(1, .call .wait), (1, .go), (1, .go), (1, .go), (2, .call .set), (2, .go), (0, .call .wait)]).map Prod.fst =
    some s ∧ Sleeps 1 s ∧ ∃ th, s.ths[0]? = some th ∧ th.pc = .tryLoad .wait :=
  ⟨_, rfl, ⟨_, _, _, rfl, rfl⟩, _, rfl, rfl⟩

end Verif.ManualFutex

namespace Verif.AutoSem

open Verif.Spec.Alone

/-- **C111** (`auto_reset_event` over a semaphore).  `post()` and `try_wait()` return after at most four steps, in every state. -/
theorem C111_returns (s : St) (t : Nat) (pc : PC) (ht : s.ths[t]? = some pc) :
    (pc = .idle → Call step Fair t (fun _ es => Ended t es) (.call (.sig .post)) 4 s) ∧
    (Al.posting pc = true → Within step Fair t (fun _ es => Ended t es) 4 s) ∧
    (pc = .idle → Call step Fair t (fun _ es => Ended t es) (.call (.acq .tryWait)) 4 s) ∧
    (Al.trying pc = true → Within step Fair t (fun _ es => Ended t es) 4 s) := by
  refine ⟨?_, Al.post ht, ?_, Al.tryWait ht⟩
  · rintro rfl; exact ⟨_, _, by simp only [step, ht]; rfl, Al.post (get_set ht) rfl⟩
  · rintro rfl; exact ⟨_, _, by simp only [step, ht]; rfl, Al.tryWait (get_set ht) rfl⟩

/-- **C111** (`auto_reset_event` over a semaphore).  In every state a wait is waiting for the semaphore, whose count is zero, or it returns or gets
there after at most four steps. -/
theorem C111_enters (s : St) (t : Nat) (pc : PC) (ht : s.ths[t]? = some pc) :
    (∀ k, pc = .idle → Call step Fair t (fun s' es => Ended t es ∨ Waits t s') (.call (.acq k)) 4 s) ∧
    (Al.waiting pc = true → Waits t s ∨ Within step Fair t (fun s' es => Ended t es ∨ Waits t s') 4 s) := by
  refine ⟨?_, Al.wait ht⟩
  rintro k rfl
  have h1 : step s (t, .call (.acq k)) = some ({ s with ths := s.ths.set t (.wAdd k) }, [.called t (.acq k)]) := by
    simp only [step, ht]
  refine ⟨_, _, h1, ?_⟩
  rcases Al.wait (s := { s with ths := s.ths.set t (.wAdd k) }) (t := t) (get_set ht) rfl with ⟨k', hk, _⟩ | h
  · rw [get_set ht] at hk; cases hk
  · exact h

/-- Thread 1 waits for the semaphore, thread 2 is suspended in `post()` before it increments it. -/
example : ∃ s, (runFrom step (init 3) [(1, .call (.acq .wait)), (1, .go), (2, .call (.sig .post)), (2, .go), (2, .go), (0, .call (.acq .wait)), (0, .go)]).map
    Prod.fst = some s ∧ Waits 1 s ∧ s.ths[2]? = some .pSem ∧ Waits 0 s :=
  ⟨_, rfl, ⟨_, rfl, by decide, rfl⟩, rfl, ⟨_, rfl, by decide, rfl⟩⟩

end Verif.AutoSem

namespace Verif.WinEvent

open Verif.Spec.Alone

/-- **C111** (events of Windows).  `set()`, `reset()`, `try_wait()` return (or throw) after one call of the system, a wait with a time point of the system
clock after two; a wait for `left` milliseconds after at most `left + 1`, whatever the system answers; `wait()` after one if the event is set. -/
theorem C111_returns (manual : Bool) (s : St) (t : Nat) (ht : s.ths[t]? = some .idle) :
    Call (step manual) Fair t (fun _ es => Ended t es) (.call .set) 1 s ∧
    (manual = true → Call (step manual) Fair t (fun _ es => Ended t es) (.call .reset) 1 s) ∧
    Call (step manual) Fair t (fun _ es => Ended t es) (.call .tryWait) 1 s ∧
    Call (step manual) Fair t (fun _ es => Ended t es) (.call .timedAbs) 2 s ∧
    (∀ ms : Int, Call (step manual) Fair t (fun _ es => Ended t es) (.call (.timedRel ms)) (ms.toNat + 1) s) ∧
    (s.flag = true → Call (step manual) Fair t (fun _ es => Ended t es) (.call .wait) 1 s) := by
  refine ⟨?_, ?_, ?_, ?_, ?_, ?_⟩
  · exact ⟨_, _, by simp only [step, ht]; rfl, Al.one (get_set ht) (by simp)⟩
  · rintro rfl; exact ⟨_, _, by simp only [step, ht]; rfl, Al.one (get_set ht) (by simp)⟩
  · exact ⟨_, _, by simp only [step, ht]; rfl, Al.one (get_set ht) (by simp)⟩
  · exact ⟨_, _, by simp only [step, ht]; rfl, Al.timer (get_set ht) rfl⟩
  · exact fun ms => ⟨_, _, by simp only [step, ht]; rfl, Al.rel _ (get_set ht) (Nat.lt_succ_self _)⟩
  · intro hv; refine ⟨_, _, by simp only [step, ht]; rfl, ?_⟩; exact Al.wait (get_set ht) hv

example : ∃ s, (runFrom (step false) (init 2) [(1, .call .wait), (0, .call .set), (0, .go)]).map Prod.fst = some s ∧ s.ths[0]? = some .idle ∧
    s.flag = true := ⟨_, rfl, rfl, rfl⟩

end Verif.WinEvent
