import Verif.Proof.WinCvFail

/-!
# The Windows condition variable when locks fail (C113)

For any number of threads, any interleaving, any timeouts, any failures of the operating system, and failures of the internal mutex and of
the user's lock at any time.
-/

namespace Verif.WinCvFail

open Verif.WinCv (PC)

/-- **C113.**  When a wait returns or throws (other than by the user's lock), the thread owns the user's lock; when it is left because the
user's lock could not be locked again, it does not. -/
theorem C113_user_lock {n : Nat} {tr es : List Ev} {s s' : St} {t u : Nat} {a : Act} (h : Exec step (init n) tr s)
    (hs : step s (u, a) = some (s', es)) :
    (∀ r, Ev.ev (.ret t r) ∈ es → s'.cv.user = some t) ∧ (Ev.relockThrew t ∈ es → s'.cv.user ≠ some t) := by
  have hi := (inv_exec h).locks
  unfold step at hs
  simp only at hs
  split at hs
  · cases hs
  cases a with
  | base a =>
    simp only [Option.map_eq_some_iff] at hs
    obtain ⟨⟨cv', es'⟩, hb, he⟩ := hs
    cases he
    refine ⟨?_, ?_⟩
    · intro r hr
      have hst := WinCv.step_sound hb
      obtain ⟨x, hx, he⟩ := List.mem_map.mp hr
      cases he
      cases hst with
      | goto h hg => cases hg <;> cases hx <;> first | exact hi.early _ _ h rfl | (rename_i hx; cases hx)
      | exit h hg => cases hg <;> cases hx <;> first | exact hi.early _ _ h rfl | (rename_i hx; cases hx)
      | relock h hu => cases List.mem_singleton.mp hx; rfl
      | _ => first | (cases hx; done) | (cases List.mem_singleton.mp hx; done)
    · intro hr
      obtain ⟨x, _, he⟩ := List.mem_map.mp hr
      cases he
  | lockFails =>
    simp only at hs
    split at hs
    · next hp =>
      cases hs
      refine ⟨fun r hr => ?_, fun hr => ?_⟩
      · cases List.mem_singleton.mp hr; exact hi.early _ _ hp rfl
      · cases List.mem_singleton.mp hr
    · cases hs; exact ⟨fun r hr => (by cases List.mem_singleton.mp hr), fun hr => (by cases List.mem_singleton.mp hr)⟩
    · cases hs; exact ⟨fun r hr => (by cases List.mem_singleton.mp hr), fun hr => (by cases List.mem_singleton.mp hr)⟩
    · cases hs; exact ⟨fun r hr => (by cases List.mem_singleton.mp hr), fun hr => (by cases List.mem_singleton.mp hr)⟩
    · cases hs; exact ⟨fun r hr => (by cases List.mem_singleton.mp hr), fun hr => (by cases List.mem_singleton.mp hr)⟩
    · cases hs; exact ⟨fun r hr => (by cases List.mem_singleton.mp hr), fun hr => (by cases List.mem_singleton.mp hr)⟩
    · next hp =>
      cases hs
      refine ⟨fun r hr => (by cases List.mem_singleton.mp hr), fun hr => ?_⟩
      cases List.mem_singleton.mp hr
      exact hi.late _ _ hp rfl
    · cases hs

/-- **C113.**  No failure leaves the internal mutex locked: its owner is inside a function, not blocked in the system and not about to lock
the user's lock. -/
theorem C113_internal_mutex {n : Nat} {tr : List Ev} {s : St} (h : Exec step (init n) tr s) {t : Nat} (ho : s.cv.owner = some t) :
    ¬ Outside s t ∧ ¬ Blocked s t ∧ ∀ r, s.cv.ths[t]? ≠ some (.relock r) := by
  obtain ⟨pc, hp, hh⟩ := (inv_exec h).locks.owned t ho
  refine ⟨fun h => ?_, fun ⟨k, q, h⟩ => ?_, fun r h => ?_⟩ <;>
  · cases hp.symm.trans h; cases hh

/-- **C113, partial.**  The number of waiters is too high by the number of waits that were left because the internal mutex could not be
locked after the wait of the system, for ever.  Failures of any other kind, among them those of the internal mutex before the wait and of
the user's lock, do no harm.  Missing: that the number is right. -/
theorem C113_count_partial {n : Nat} {tr : List Ev} {s : St} (h : Exec step (init n) tr s) :
    s.cv.total + (WinCv.allGranted (plain tr) - WinCv.allConsumed (plain tr)) = WinCv.waiting s.cv + abandoned tr ∧
    WinCv.allConsumed (plain tr) ≤ WinCv.allGranted (plain tr) := by
  obtain ⟨g, hg, hst, hc, hsum⟩ := (inv_exec h).count
  have h1 := WinCv.sum_w hc
  have h2 := WinCv.sum_free (ns := (plus s.cv g).nodes) (fun q x hx => (hc.ok q x hx).le)
  have h3 := hc.total
  have h4 : WinCv.waiting (plus s.cv g) = WinCv.waiting s.cv + abandoned tr := by
    unfold WinCv.waiting plus
    rw [List.countP_append, ← hg]
    congr 1
    rw [List.countP_eq_length]
    intro pc hp
    have := hst pc hp
    cases pc <;> first | rfl | cases this
  unfold Sum at hsum
  have h5 : (plus s.cv g).total = s.cv.total := rfl
  omega

/-- The failure: thread 0 waits with a timeout, thread 1 begins to wait and owns the internal mutex when thread 0 has timed out and cannot
lock it. -/
def demoLeak : List (Nat × Act) :=
  [(0, .base .userLock), (0, .base (.callWait .rel)), (0, .base .go), (0, .base .go), (0, .base .go), (0, .base .go),
   (1, .base .userLock), (1, .base (.callWait .wait)), (1, .base .go), (0, .base .timeout)]

/-- What follows: thread 1 gets blocked, thread 0 returns; thread 2 notifies thread 1; thread 3 waits before thread 1 has woken up; then
thread 1 returns. -/
def demoRest : List (Nat × Act) :=
  [(1, .base .go), (1, .base .go), (1, .base .go), (1, .base .go), (0, .base .go), (0, .base .userUnlock),
   (2, .base (.callNotify false)), (2, .base .go), (2, .base .go), (2, .base .go), (2, .base .go), (2, .base .go),
   (3, .base .userLock), (3, .base (.callWait .wait)), (3, .base .go), (3, .base .go), (3, .base .go), (3, .base .go), (3, .base .go),
   (3, .base .go),
   (1, .base .go), (1, .base .go), (1, .base .go), (1, .base .go), (1, .base .userUnlock)]

/-- `notify_one`. -/
def demoNotify : List (Nat × Act) :=
  [(2, .base (.callNotify false)), (2, .base .go), (2, .base .go), (2, .base .go), (2, .base .go), (2, .base .go)]

/-- **C113, refuted.**  One lock of the internal mutex fails, while another thread owns it.  Later thread 3 is the only thread that waits,
and all others are outside.  Thread 2 calls `notify_one`, which returns having issued a notification: thread 3 stays blocked, and no thread
can do anything about it but call another function. -/
theorem C113_lost_notification_refuted :
    ∃ tr0 s0, Exec step (init 4) tr0 s0 ∧ s0.cv.owner = some 1 ∧ abandoned tr0 = 0 ∧
    ∃ s1, step s0 (0, .lockFails) = some (s1, [.abandoned 0]) ∧
    ∃ tr1 s2, Exec step s1 tr1 s2 ∧ abandoned tr1 = 0 ∧ Outside s2 0 ∧ Outside s2 1 ∧ Outside s2 2 ∧ Blocked s2 3 ∧
    ∃ s3, Exec step s2 [.ev (.notify 2 false), .ev (.decided 2 false 1), .ev (.issued 2 1), .ev (.notified 2)] s3 ∧
      Outside s3 0 ∧ Outside s3 1 ∧ Outside s3 2 ∧ Blocked s3 3 ∧ ∀ t, step s3 (t, .base .go) = none := by
  refine ⟨_, _, exec_of_run (ls := demoLeak) rfl, rfl, rfl, _, rfl, ?_⟩
  refine ⟨_, _, exec_of_run (ls := demoRest) rfl, rfl, by exact rfl, by exact rfl, by exact rfl, ⟨_, _, rfl⟩, ?_⟩
  refine ⟨_, exec_of_run (ls := demoNotify) (r := (_, _)) rfl, ?_⟩
  refine ⟨by exact rfl, by exact rfl, by exact rfl, ⟨_, _, rfl⟩, ?_⟩
  intro t
  match t with
  | 0 | 1 | 2 | 3 => rfl
  | n + 4 => rfl

/-- **C113, refuted.**  After the same failure the counter, which the destructor asserts to be zero, stays 1 although nobody waits. -/
theorem C113_count_refuted : ∃ tr s, Exec step (init 1) tr s ∧ Outside s 0 ∧ WinCv.waiting s.cv = 0 ∧ s.cv.owner = none ∧ s.cv.total = 1 := by
  refine ⟨_, _, exec_of_run (ls := [(0, .base .userLock), (0, .base (.callWait .rel)), (0, .base .go), (0, .base .go), (0, .base .go),
    (0, .base .go), (0, .base .timeout), (0, .lockFails), (0, .base .go), (0, .base .userUnlock)]) rfl, ?_⟩
  exact ⟨rfl, rfl, rfl, rfl⟩

/-- The other failures: the internal mutex before the wait, the user's lock after it, and both locks in a row. -/
example : ∃ tr s, Exec step (init 3) tr s ∧ Ev.ev (.ret 0 .threw) ∈ tr ∧ Ev.relockThrew 1 ∈ tr ∧ Ev.terminated 2 ∈ tr ∧
    abandoned tr = 1 ∧ s.dead = true := by
  refine ⟨_, _, exec_of_run (ls := [(0, .base .userLock), (0, .base (.callWait .wait)), (0, .lockFails), (0, .base .userUnlock),
    (1, .base .userLock), (1, .base (.callWait .rel)), (1, .base .go), (1, .base .go), (1, .base .go), (1, .base .go),
    (1, .base .timeout), (1, .base .go), (1, .base .go), (1, .lockFails),
    (2, .base .userLock), (2, .base (.callWait .rel)), (2, .base .go), (2, .base .go), (2, .base .go), (2, .base .go), (2, .base .go),
    (2, .base .timeout), (2, .lockFails), (2, .lockFails)]) rfl, ?_⟩
  refine ⟨by decide, by decide, by decide, rfl, rfl⟩

end Verif.WinCvFail
