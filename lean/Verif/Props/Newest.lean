import Verif.Proof.Newest

/-!
# The models of memory order have all the executions of the plain ones (C89, C90, C104, C105, C106)

What is proved with the models of memory order would be worthless if they lost executions.  They have every execution of the plain models in which loads read
the newest value.
-/

namespace Verif

/-- **C89** (`auto_reset_event` over a semaphore): the model of memory order has every execution of the plain model. -/
theorem AutoSemOrder.C89_covers (n : Nat) : Covers AutoSemOrder.step (AutoSemOrder.init n) (·.base) AutoSemOrder.plain AutoSem.step (AutoSem.init n) :=
  covers_of_sim Fits (fits_init n) rfl rfl plain_append sim

/-- A post meets a waiting thread; the compare-exchange fails spuriously once. -/
example : ∃ tr' s, Exec AutoSemOrder.step (AutoSemOrder.init 2) tr' s ∧ s.base = ⟨0, 0, [.idle, .idle]⟩ ∧
    AutoSemOrder.plain tr' = [.called 0 (.acq .wait), .called 1 (.sig .post), .ret 1 (.sig .post) true, .ret 0 (.acq .wait) true] := by
  obtain ⟨tr', s, h1, h2, h3⟩ := AutoSemOrder.C89_covers 2 _ _ (exec_of_run (step := AutoSem.step) (ls := [(0, .call (.acq .wait)), (0, .go), (1, .call (.sig .post)), (1, .go), (1, .spurious), (1, .go), (1, .go), (1, .go),
    (0, .go), (0, .go)]) rfl)
  exact ⟨tr', s, h1, h2, h3⟩

/-- **C90** (`auto_reset_event` on futexes): the model of memory order has every execution of the plain model in which loads read the newest value. -/
theorem AutoFutexOrder.C90_covers (n : Nat) : Covers AutoFutexOrder.step (AutoFutexOrder.init n) (·.base) AutoFutexOrder.plain AutoFutex.newest (AutoFutex.init n) :=
  covers_of_sim Fits (fits_init n) rfl rfl plain_app sim

/-- Two posts at once: the compare-exchange of the second one fails. -/
example : ∃ tr' s, Exec AutoFutexOrder.step (AutoFutexOrder.init 2) tr' s ∧ s.base.word.val = 0x400000 ∧
    AutoFutexOrder.plain tr' = [.called 0 .post, .called 1 .post, .posted 0, .postDone 0, .postDone 1] := by
  obtain ⟨tr', s, h1, h2, h3⟩ := AutoFutexOrder.C90_covers 2 _ _ (exec_of_run (step := AutoFutex.newest) (ls := [(0, .call .post), (1, .call .post), (0, .load 0), (1, .load 0), (0, .go), (1, .go), (1, .go)]) rfl)
  exact ⟨tr', s, h1, congrArg (·.word.val) h2, h3⟩

/-- **C104** (`manual_reset_event` on futexes): likewise. -/
theorem ManualFutexOrder.C104_covers (n : Nat) :
    Covers ManualFutexOrder.step (ManualFutexOrder.init n) (·.base) ManualFutexOrder.plain ManualFutex.newest (ManualFutex.init n) :=
  covers_of_sim Fits (fits_init n) rfl rfl plain_app sim

/-- A thread waits, the event is set, the thread is woken. -/
example : ∃ tr' s, Exec ManualFutexOrder.step (ManualFutexOrder.init 2) tr' s ∧ s.base.sets = 1 ∧
    ManualFutexOrder.plain tr' = [.called 0 .wait, .called 1 .set, .wasSet 1, .setDone 1, .waitDone 0] := by
  obtain ⟨tr', s, h1, h2, h3⟩ := ManualFutexOrder.C104_covers 2 _ _ (exec_of_run (step := ManualFutex.newest) (ls := [(0, .call .wait), (0, .go), (0, .go), (0, .go), (1, .call .set), (1, .go), (1, .go),
    (0, .load 3), (0, .go)]) rfl)
  exact ⟨tr', s, h1, congrArg (·.sets) h2, h3⟩

/-- **C105** (emulations of semaphores, events and the timed mutex): the model of memory order has every execution of the plain model. -/
theorem MonitorOrder.C105_covers {D S : Type} (M : Monitor.Mon D S) (n : Nat) :
    Covers (MonitorOrder.step M) (MonitorOrder.init M n) (·.base) MonitorOrder.plain (Monitor.step M) (Monitor.init M n) :=
  covers_of_sim (fun s => s.views.length = s.base.ths.length) (by simp [MonitorOrder.init, Monitor.init]) rfl rfl plain_app (sim M)

/-- The emulated semaphore: a thread waits, the other one posts. -/
example : ∃ tr' s, Exec (MonitorOrder.step (Monitor.semaphore Monitor.noRewait 0)) (MonitorOrder.init (Monitor.semaphore Monitor.noRewait 0) 2) tr' s ∧ s.base.owner = none ∧
    MonitorOrder.plain tr' = [.called 0 (.acq .wait), .called 1 (.sig .post), .ret 1 (.sig .post) true, .ret 0 (.acq .wait) true] := by
  obtain ⟨tr', s, h1, h2, h3⟩ := MonitorOrder.C105_covers (Monitor.semaphore Monitor.noRewait 0) 2 _ _ (exec_of_run (step := Monitor.step (Monitor.semaphore Monitor.noRewait 0))
    (ls := [(0, .call (.acq .wait)), (0, .go), (0, .go), (1, .call (.sig .post)), (1, .go), (1, .go), (1, .wake 0 false), (1, .go), (0, .go), (0, .go), (0, .go), (0, .go)]) rfl)
  exact ⟨tr', s, h1, congrArg (·.owner) h2, h3⟩

/-- **C106** (condition variable of Windows): the model of memory order has every execution of the plain model. -/
theorem WinCvOrder.C106_covers (n : Nat) : Covers WinCvOrder.step (WinCvOrder.init n) (·.base) WinCvOrder.plain WinCv.step (WinCv.init n) :=
  covers_of_sim (Reachable WinCvOrder.step (WinCvOrder.init n)) reachable_init rfl rfl plain_append (sim n)

/-- A thread waits, the other one notifies it. -/
example : ∃ tr' s, Exec WinCvOrder.step (WinCvOrder.init 2) tr' s ∧ s.base.user = some 0 ∧
    WinCvOrder.plain tr' = [.called 0 .wait, .registered 0, .unlocked 0, .notify 1 false, .decided 1 false 1, .issued 1 1, .notified 1, .took 0 1, .ret 0 .noTimeout] := by
  obtain ⟨tr', s, h1, h2, h3⟩ := WinCvOrder.C106_covers 2 _ _ (exec_of_run (step := WinCv.step)
    (ls := [(0, .userLock), (0, .callWait .wait), (0, .go), (0, .go), (0, .go), (0, .go), (1, .callNotify false), (1, .go), (1, .go), (1, .go), (1, .go), (1, .go),
      (0, .go), (0, .go), (0, .go), (0, .go)]) rfl)
  exact ⟨tr', s, h1, congrArg (·.user) h2, h3⟩

end Verif
