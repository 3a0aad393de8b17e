import Verif.Base.Run
import Verif.Model.SharedSpinMutex
import Verif.Model.SpinMutex
import Verif.Proof.Returned
import Verif.Props.ManualEventFutex

/-!
# C91: when may the object be destroyed?

A thread whose wait (lock) succeeded knows that some `post`, `set` (`unlock`) took effect.  If it also knows that no other call is
pending, may it destroy the object?  Only if the call that released it makes no further access.  See `Verif.Spec.Returned`.
-/

/-! ## The emulations: yes, a wait returns only after the signal it consumed has returned -/

namespace Verif.Monitor

open Verif.Atomic (Kind Op Ev One SetReset successes signalsCalled signalsDone setsDone setsCalled signalling prog)

/-- **C91**, auto_reset_event: never more successful waits than posts that have returned. -/
theorem C91_emulated_event {c : Kind → Bool} {n : Nat} {tr : List (Ev One)} {s : St Bool One}
    (h : Exec (step (autoEvent c)) (init (autoEvent c) n) tr s) : successes tr ≤ signalsDone tr := by
  have := (kinv_exec (avail_auto c) h).late
  have h0 : (if (autoEvent c).init = true then 1 else 0) = 0 := rfl
  simp only [h0] at this
  omega

/-- **C91**, semaphore: never more successful waits than initial permits and posts that have returned — even if the count wraps. -/
theorem C91_emulated_semaphore {c : Kind → Bool} {i : UInt32} {n : Nat} {tr : List (Ev One)} {s : St UInt32 One}
    (h : Exec (step (semaphore c i)) (init (semaphore c i) n) tr s) : successes tr ≤ signalsDone tr + i.toNat := by
  have := (kinv_exec (avail_sem c i) h).late
  change _ ≤ signalsDone tr + i.toNat at this
  omega

/-- **C91**, timed_mutex: a lock returns only after the `unlock` before it has returned. -/
theorem C91_emulated_mutex {c : Kind → Bool} {n : Nat} {tr : List (Ev One)} {s : St Bool One}
    (h : Exec (step (timedMutex c)) (init (timedMutex c) n) tr s) : successes tr ≤ signalsDone tr + 1 := by
  have := (kinv_exec (avail_lock c) h).late
  have h0 : (if (timedMutex c).init = true then 0 else 1) = 1 := rfl
  simp only [h0] at this
  omega

/-- **C91**, manual_reset_event: no wait succeeds before some `set` has returned. -/
theorem C91_emulated_manual {c : Kind → Bool} {n : Nat} {tr : List (Ev SetReset)} {s : St Bool SetReset}
    (h : Exec (step (manualEvent c)) (init (manualEvent c) n) tr s) (hs : 0 < successes tr) : 0 < setsDone tr :=
  (finv_exec h).late (by omega)

/-- **C91**, destruction of an auto_reset_event: once every post was consumed nobody is inside `post`. -/
theorem C91_event_none_inside {c : Kind → Bool} {n : Nat} {tr : List (Ev One)} {s : St Bool One}
    (h : Exec (step (autoEvent c)) (init (autoEvent c) n) tr s) (hall : successes tr = signalsCalled tr) {t : Nat} (ht : t < n) :
    ¬ signalling tr t := by
  refine none_signalling (avail_auto c) h ?_ ht
  change signalsCalled tr + 0 ≤ _
  omega

/-- **C91**, destruction of a semaphore: once every permit was consumed nobody is inside `post`. -/
theorem C91_semaphore_none_inside {c : Kind → Bool} {i : UInt32} {n : Nat} {tr : List (Ev One)} {s : St UInt32 One}
    (h : Exec (step (semaphore c i)) (init (semaphore c i) n) tr s) (hall : successes tr = signalsCalled tr + i.toNat)
    {t : Nat} (ht : t < n) : ¬ signalling tr t := by
  refine none_signalling (avail_sem c i) h ?_ ht
  change signalsCalled tr + i.toNat ≤ _
  omega

/-- **C91**, destruction of a timed_mutex: while the mutex is owned (one lock more than calls of `unlock`) nobody is inside
`unlock`, so the last owner may unlock and destroy it. -/
theorem C91_mutex_none_inside {c : Kind → Bool} {n : Nat} {tr : List (Ev One)} {s : St Bool One}
    (h : Exec (step (timedMutex c)) (init (timedMutex c) n) tr s) (hall : successes tr = signalsCalled tr + 1)
    {t : Nat} (ht : t < n) : ¬ signalling tr t := by
  refine none_signalling (avail_lock c) h ?_ ht
  change signalsCalled tr + 1 ≤ _
  omega

/-- **C91**, destruction of a manual_reset_event: if `set` was called once and a wait has succeeded, nobody is inside `set`. -/
theorem C91_manual_none_inside {c : Kind → Bool} {n : Nat} {tr : List (Ev SetReset)} {s : St Bool SetReset}
    (h : Exec (step (manualEvent c)) (init (manualEvent c) n) tr s) (hone : setsCalled tr = 1) (hsucc : 0 < successes tr)
    {t : Nat} (ht : t < n) (e : Bool) : prog tr t ≠ some (.sig .set, e) :=
  none_setting h (by omega) hsucc ht e

/-- The waiter is asleep when the event is posted; it returns after the post has. -/
example : ∃ tr s, Exec (step (autoEvent noRewait)) (init (autoEvent noRewait) 2) tr s ∧
    tr = [.called 0 (.acq .wait), .called 1 (.sig .post), .ret 1 (.sig .post) true, .ret 0 (.acq .wait) true] ∧
    successes tr = signalsCalled tr :=
  ⟨_, _, exec_of_run (ls := [(0, .call (.acq .wait)), (0, .go), (0, .go), (1, .call (.sig .post)), (1, .go), (1, .go), (1, .wake 0 false),
    (1, .go), (0, .go), (0, .go), (0, .go), (0, .go)]) rfl, rfl, rfl⟩

/-- The same for the semaphore, with one initial permit taken by another thread before. -/
example : ∃ tr s, Exec (step (semaphore noRewait 1)) (init (semaphore noRewait 1) 2) tr s ∧
    tr = [.called 1 (.acq .tryWait), .ret 1 (.acq .tryWait) true, .called 0 (.acq .wait), .called 1 (.sig .post),
      .ret 1 (.sig .post) true, .ret 0 (.acq .wait) true] ∧ successes tr = signalsCalled tr + (1 : UInt32).toNat :=
  ⟨_, _, exec_of_run (ls := [(1, .call (.acq .tryWait)), (1, .go), (1, .go), (1, .go), (1, .go), (0, .call (.acq .wait)), (0, .go), (0, .go),
    (1, .call (.sig .post)), (1, .go), (1, .go), (1, .wake 0 false), (1, .go), (0, .go), (0, .go), (0, .go), (0, .go)]) rfl, rfl, rfl⟩

/-- A contended mutex. -/
example : ∃ tr s, Exec (step (timedMutex noRewait)) (init (timedMutex noRewait) 2) tr s ∧
    tr = [.called 1 (.acq .wait), .ret 1 (.acq .wait) true, .called 0 (.acq .wait), .called 1 (.sig .post),
      .ret 1 (.sig .post) true, .ret 0 (.acq .wait) true] ∧ successes tr = signalsCalled tr + 1 :=
  ⟨_, _, exec_of_run (ls := [(1, .call (.acq .wait)), (1, .go), (1, .go), (1, .go), (1, .go), (0, .call (.acq .wait)), (0, .go), (0, .go),
    (1, .call (.sig .post)), (1, .go), (1, .go), (1, .wake 0 false), (1, .go), (0, .go), (0, .go), (0, .go), (0, .go)]) rfl, rfl, rfl⟩

/-- Two waiters, one `set`. -/
example : ∃ tr s, Exec (step (manualEvent noRewait)) (init (manualEvent noRewait) 3) tr s ∧
    tr = [.called 0 (.acq .wait), .called 2 (.acq .wait), .called 1 (.sig .set), .ret 1 (.sig .set) true, .ret 0 (.acq .wait) true] ∧
    setsCalled tr = 1 ∧ 0 < successes tr :=
  ⟨_, _, exec_of_run (ls := [(0, .call (.acq .wait)), (0, .go), (0, .go), (2, .call (.acq .wait)), (2, .go), (2, .go), (1, .call (.sig .set)),
    (1, .go), (1, .go), (1, .go), (1, .go), (0, .go), (0, .go), (0, .go), (0, .go)]) rfl, rfl, rfl, by decide⟩

end Verif.Monitor

/-! ## The event built on a semaphore: yes -/

namespace Verif.AutoSem

open Verif.Atomic (Kind Op Ev One successes signalsCalled signalsDone)

/-- **C91**, auto_reset_event over a semaphore: once every post was consumed, a thread still inside `post` is past its last access
(line 52): whatever became of the members, its only remaining step leaves them alone and returns. -/
theorem C91_sem_event {n : Nat} {tr : List (Ev One)} {s : St} (h : Exec step (init n) tr s)
    (hall : successes tr = signalsCalled tr) {t : Nat} {pc : PC} (ht : s.ths[t]? = some pc)
    (hin : pc = .pLoad ∨ (∃ v, pc = .pCas v) ∨ pc = .pSem ∨ ∃ r, pc = .leave (.sig .post) r) :
    ∃ r, pc = .leave (.sig .post) r ∧ ∀ st sem a, step ⟨st, sem, s.ths⟩ (t, a) =
      if a = .go then some (⟨st, sem, s.ths.set t .idle⟩, [.ret t (.sig .post) r]) else none := by
  have I := (inv_exec h).count
  simp only [init] at I
  rw [countP_replicate_false rfl, countP_replicate_false rfl] at I
  have hno : pc.posts = true → False := by
    intro hp
    have := countP_pos_of_get (p := PC.posts) ht hp
    omega
  rcases hin with rfl | ⟨v, rfl⟩ | rfl | ⟨r, rfl⟩
  · exact (hno rfl).elim
  · exact (hno rfl).elim
  · exact (hno rfl).elim
  · refine ⟨r, rfl, ?_⟩
    intro st sem a
    cases a <;> simp [step, ht]

/-- **C91**, the same without the assumption that everything was consumed: never more successful waits than posts that have
returned or are about to return without another access. -/
theorem C91_sem_event_counts {n : Nat} {tr : List (Ev One)} {s : St} (h : Exec step (init n) tr s) :
    successes tr ≤ signalsDone tr + s.ths.countP (fun pc => match pc with | .leave (.sig _) _ => true | _ => false) := by
  have I := (inv_exec h).count
  simp only [init] at I
  rw [countP_replicate_false rfl, countP_replicate_false rfl] at I
  have C := calls_exec h
  have e : (fun pc : PC => match pc with | .leave (.sig _) _ => true | _ => false) = PC.leavesPost := by
    funext pc; unfold PC.leavesPost; rfl
  rw [e]
  simp only [Calls] at C
  omega

/-- The waiter has returned, the poster is still inside `post`. -/
example : ∃ tr s, Exec step (init 2) tr s ∧
    tr = [.called 0 (.acq .wait), .called 1 (.sig .post), .ret 0 (.acq .wait) true] ∧ successes tr = signalsCalled tr ∧
    s.ths[1]? = some (.leave (.sig .post) true) :=
  ⟨_, _, exec_of_run (ls := [(0, .call (.acq .wait)), (0, .go), (1, .call (.sig .post)), (1, .go), (1, .go), (1, .go), (0, .go), (0, .go)]) rfl,
    rfl, rfl, rfl⟩

end Verif.AutoSem

/-! ## The spin mutexes: yes, the releasing access is the last one -/

namespace Verif.Spin

/-- **C91**, spin_mutex: in every state and both variants, the access with which `unlock` releases the mutex is its last step. -/
theorem C91_spin {v : Variant} {s s' : St} {l : Nat × Act} {es : List Ev} {t : Nat} (hs : step v s l = some (s', es))
    (he : Ev.unlocked t ∈ es) : ∃ th, s'.ths[t]? = some th ∧ th.pc = .idle := by
  obtain ⟨u, a⟩ := l
  unfold step at hs
  simp only at hs
  split at hs
  · cases hs
  next th ht =>
  repeat' split at hs
  all_goals first
    | contradiction
    | (cases hs; simp only [List.mem_singleton, List.not_mem_nil, reduceCtorEq] at he; done)
    | (cases hs; simp only [List.mem_singleton, Ev.unlocked.injEq] at he; subst he; exact ⟨_, get_set_self ht, rfl⟩)

/-- Both variants do unlock. -/
example (v : Variant) : ∃ s s', Reachable (step v) (init 1) s ∧ step v s (0, .go false) = some (s', [.unlocked 0]) := by
  cases v
  · exact ⟨_, _, ⟨_, exec_of_run (ls := [(0, .callTry), (0, .go false), (0, .callUnlock)]) rfl⟩, rfl⟩
  · exact ⟨_, _, ⟨_, exec_of_run (ls := [(0, .callTry), (0, .go false), (0, .callUnlock)]) rfl⟩, rfl⟩

end Verif.Spin

namespace Verif.SharedSpin

/-- **C91**, shared_spin_mutex: the same for `unlock` and `unlock_shared`. -/
theorem C91_shared_spin {s s' : St} {l : Nat × Act} {es : List Ev} {t : Nat} (hs : step s l = some (s', es))
    (he : Ev.unlocked t ∈ es ∨ Ev.unlockedShared t ∈ es) : ∃ th, s'.ths[t]? = some th ∧ th.pc = .idle := by
  obtain ⟨u, a⟩ := l
  unfold step at hs
  simp only at hs
  split at hs
  · cases hs
  next th ht =>
  repeat' split at hs
  all_goals first
    | contradiction
    | (cases hs; simp only [List.mem_singleton, List.not_mem_nil, reduceCtorEq, or_self] at he; done)
    | (cases hs
       simp only [List.mem_singleton, Ev.unlocked.injEq, Ev.unlockedShared.injEq, reduceCtorEq, or_false, false_or] at he
       subst he
       exact ⟨_, get_set_self ht, rfl⟩)

example : ∃ s s', Reachable step (init 1) s ∧ step s (0, .go) = some (s', [.unlockedShared 0]) :=
  ⟨_, _, ⟨_, exec_of_run (ls := [(0, .callTryShared), (0, .load 0), (0, .go), (0, .callUnlockShared)]) rfl⟩, rfl⟩

example : ∃ s s', Reachable step (init 1) s ∧ step s (0, .go) = some (s', [.unlocked 0]) :=
  ⟨_, _, ⟨_, exec_of_run (ls := [(0, .callTry), (0, .go), (0, .callUnlock)]) rfl⟩, rfl⟩

end Verif.SharedSpin

/-! ## The events on futexes: no -/

namespace Verif.AutoFutex

/-- A waiter registers and is about to sleep; the post finds it registered and will wake it; the waiter sees the changed word,
takes the post and returns. -/
def lateSignal : List (Nat × Act) :=
  [(0, .call .wait), (0, .load 0), (0, .go), (0, .go), (0, .go), (1, .call .post), (1, .load 1), (1, .go), (0, .go),
    (0, .load 0x400001), (0, .go)]

/-- **C91 (refuted)**, auto_reset_event on a futex: the only post was consumed, its waiter has returned and nobody else is inside a
call, so the waiter may destroy the event; yet `post` still passes the address of `m_state` to the kernel (line 81). -/
theorem C91_auto_futex_refuted : ∃ tr s v, Exec step (init 2) tr s ∧
    tr = [.called 0 .wait, .called 1 .post, .posted 1, .waitDone 0] ∧ successes tr = postCalls tr ∧ postsDone tr = 0 ∧
    (∃ v, s.ths[0]? = some ⟨.idle, v⟩) ∧ s.ths[1]? = some ⟨.postSignal, v⟩ ∧ ∃ s', step s (1, .wakeNone) = some (s', [.postDone 1]) :=
  ⟨_, _, _, exec_of_run (ls := lateSignal) rfl, rfl, rfl, rfl, ⟨_, rfl⟩, rfl, _, rfl⟩

/-- **C91 (partial)**: that system call is all there is.  There are never more successful waits than posts that have returned or
are about to make this system call; … -/
theorem C91_auto_futex_counts_partial {n : Nat} (hn : n ≤ 1023) {tr : List Ev} {s : St} (h : Exec step (init n) tr s) :
    successes tr ≤ postsDone tr + s.ths.countP (fun th => decide (th.pc = .postSignal)) := by
  have B := (exec_good (sinv_init hn) h).2.posts
  have M := made_exec h
  simp only [Made] at M
  have e : (fun th : Th => decide (th.pc = .postSignal)) = Th.signals := rfl
  rw [e]
  have h0 : P (init n).word.val = 0 := P_zero
  omega

/-- … `post` does not access the word any more then: whatever the word has become, it does the same and leaves the word alone; … -/
theorem C91_auto_futex_word_partial {s s' : St} {t : Nat} {v : View} {a : Act} {es : List Ev}
    (ht : s.ths[t]? = some ⟨.postSignal, v⟩) (hs : step s (t, a) = some (s', es)) :
    es = [.postDone t] ∧ s'.ths[t]? = some ⟨.idle, v⟩ ∧
    ∀ w : Loc UInt32, step { s with word := w } (t, a) = some ({ s' with word := w }, es) := by
  unfold step at hs
  simp only [ht] at hs
  cases a with
  | wakeNone =>
    simp only at hs
    split at hs
    · next hall =>
      cases hs
      refine ⟨rfl, get_set_self ht, fun w => ?_⟩
      simp only [step, ht, if_pos hall]
    · cases hs
  | wake j =>
    simp only at hs
    split at hs
    · next k v' hj =>
      cases hs
      have hne : j ≠ t := by rintro rfl; rw [hj] at ht; cases ht
      refine ⟨rfl, ?_, fun w => ?_⟩
      · simp only [get_set_ne hne]; exact get_set_self ht
      · simp only [step, ht, hj]
    · cases hs
  | _ => cases hs

/-- … and it does not even make the system call if no thread is registered as waiting when the post takes effect.
Missing: posts that find a registered waiter, for which the property is false. -/
theorem C91_auto_futex_alone_partial {n : Nat} (hn : n ≤ 1023) {tr : List Ev} {s s' : St} {l : Nat × Act} {es : List Ev} {t : Nat}
    (h : Exec step (init n) tr s) (hs : step s l = some (s', es)) (he : Ev.posted t ∈ es)
    (hw : ∀ (i : Nat) (th : Th), s.ths[i]? = some th → th.blocked = false) :
    es = [.posted t, .postDone t] ∧ ∃ th, s'.ths[t]? = some th ∧ th.pc = .idle := by
  have I := (exec_good (sinv_init hn) h).1.waiters
  rw [countP_eq_zero_of_forall hw] at I
  obtain ⟨u, a⟩ := l
  unfold step at hs
  simp only at hs
  split at hs
  · cases hs
  next th ht =>
  split at hs
  all_goals repeat' split at hs
  all_goals first
    | contradiction
    | skip
  all_goals simp only [Option.some.injEq, Prod.mk.injEq] at hs
  all_goals obtain ⟨rfl, rfl⟩ := hs
  all_goals first
    | (simp only [List.mem_singleton, List.not_mem_nil, reduceCtorEq] at he; done)
    | skip
  · next _ hw' hpos =>
    exfalso
    rw [waiters_pos, ← hw', I] at hpos
    omega
  · simp only [List.mem_cons, Ev.posted.injEq, List.not_mem_nil, reduceCtorEq, or_false] at he
    subst he
    exact ⟨rfl, _, get_set_self ht, rfl⟩
  · next k _ _ _ _ => cases k <;> simp [retEv] at he
  · next k _ _ _ => cases k <;> simp [retEv] at he

/-- Nobody waits. -/
example : ∃ s s', Reachable step (init 2) s ∧ step s (1, .go) = some (s', [.posted 1, .postDone 1]) :=
  ⟨_, _, ⟨_, exec_of_run (ls := [(0, .call .tryWait), (0, .load 0), (0, .go), (1, .call .post), (1, .load 0)]) rfl⟩, rfl⟩

/-- A thread about to make the system call, with a sleeper it wakes. -/
example : ∃ s s' v, Reachable step (init 2) s ∧ s.ths[1]? = some ⟨.postSignal, v⟩ ∧ step s (1, .wake 0) = some (s', [.postDone 1]) :=
  ⟨_, _, _, ⟨_, exec_of_run (ls := [(0, .call .wait), (0, .load 0), (0, .go), (0, .go), (0, .go), (0, .go), (1, .call .post), (1, .load 1),
    (1, .go)]) rfl⟩, rfl, rfl⟩

end Verif.AutoFutex

namespace Verif.ManualFutex

/-- A waiter registers and is about to sleep; `set` finds it registered and will wake it; the waiter sees the changed word and
returns. -/
def lateBroadcast : List (Nat × Act) :=
  [(0, .call .wait), (0, .go), (0, .go), (1, .call .set), (1, .go), (0, .go), (0, .load 3), (0, .go)]

/-- **C91 (refuted)**, manual_reset_event on a futex: `set` was called once, the waiter it released has returned and nobody else is
inside a call; yet `set` still passes the address of `m_state` to the kernel (line 60). -/
theorem C91_manual_futex_refuted : ∃ tr s v, Exec step (init 2) tr s ∧
    tr = [.called 0 .wait, .called 1 .set, .wasSet 1, .waitDone 0] ∧
    (∃ v, s.ths[0]? = some ⟨.idle, v⟩) ∧ s.ths[1]? = some ⟨.setWake, v⟩ ∧ ∃ s', step s (1, .go) = some (s', [.setDone 1]) :=
  ⟨_, _, _, exec_of_run (ls := lateBroadcast) rfl, rfl, ⟨_, rfl⟩, rfl, _, rfl⟩

/-- **C91 (partial)**: that system call is all there is.  When a wait succeeds, some `set` has returned or is about to make this
system call; … -/
theorem C91_manual_futex_counts_partial {n : Nat} (hn : n < 2 ^ 31) {tr es : List Ev} {s s' : St} {l : Nat × Act} {e : Ev} {t : Nat}
    (h : Exec step (init n) tr s) (hs : step s l = some (s', es)) (he : e ∈ es) (hsucc : successOf e = some t) :
    (∃ u, Ev.setDone u ∈ tr) ∨ ∃ (u : Nat) (th : Th), s.ths[u]? = some th ∧ th.pc = .setWake := by
  have hd := set_of_during tr (C30_success_implies_set hn h hs he hsucc)
  have M := made_exec h
  simp only [Made] at M
  by_cases h0 : 0 < tr.countP isSetDone
  · left
    obtain ⟨x, hx, hp⟩ := List.countP_pos_iff.mp h0
    cases x <;> first | exact ⟨_, hx⟩ | cases hp
  · right
    obtain ⟨u, th, hu, hp⟩ := exists_of_countP_pos (p := Th.waking) (l := s.ths) (by omega)
    refine ⟨u, th, hu, ?_⟩
    simp only [Th.waking] at hp
    cases hpc : th.pc <;> rw [hpc] at hp <;> first | rfl | cases hp

/-- … `set` does not access the word any more then; … -/
theorem C91_manual_futex_word_partial {s s' : St} {t : Nat} {v : View} {a : Act} {es : List Ev}
    (ht : s.ths[t]? = some ⟨.setWake, v⟩) (hs : step s (t, a) = some (s', es)) :
    es = [.setDone t] ∧ s'.ths[t]? = some ⟨.idle, v⟩ ∧
    ∀ w : Loc UInt32, step { s with word := w } (t, a) = some ({ s' with word := w }, es) := by
  unfold step at hs
  simp only [ht] at hs
  cases a with
  | go =>
    simp only at hs
    cases hs
    refine ⟨rfl, ?_, fun w => ?_⟩
    · simp only [List.getElem?_map, get_set_self ht]
      rfl
    · simp only [step, ht]
  | _ => cases hs

/-- … and it does not even make the system call if no thread is registered as waiting, or the event was set already, when `set`
takes effect.  Missing: the first `set` while threads are waiting, for which the property is false. -/
theorem C91_manual_futex_alone_partial {n : Nat} (hn : n < 2 ^ 31) {tr : List Ev} {s s' : St} {l : Nat × Act} {es : List Ev} {t : Nat}
    (h : Exec step (init n) tr s) (hs : step s l = some (s', es)) (he : Ev.wasSet t ∈ es)
    (hw : flag tr = true ∨ ∀ (i : Nat) (th : Th), s.ths[i]? = some th → th.blocked = false) :
    es = [.wasSet t, .setDone t] ∧ ∃ th, s'.ths[t]? = some th ∧ th.pc = .idle := by
  have I := inv_exec hn h
  obtain ⟨u, a⟩ := l
  unfold step at hs
  simp only at hs
  split at hs
  · cases hs
  next th ht =>
  split at hs
  all_goals repeat' split at hs
  all_goals first
    | contradiction
    | skip
  all_goals simp only [Option.some.injEq, Prod.mk.injEq] at hs
  all_goals obtain ⟨rfl, rfl⟩ := hs
  all_goals first
    | (simp only [List.mem_singleton, List.not_mem_nil, reduceCtorEq] at he; done)
    | skip
  · next hc =>
    exfalso
    simp only [Bool.and_eq_true, Bool.not_eq_true', hasWaiters_iff] at hc
    rcases hw with hw | hw
    · rw [I.flag, hc.1] at hw; cases hw
    · have := I.word
      rw [countP_eq_zero_of_forall hw, hc.1] at this
      simp only [b2n_false] at this
      omega
  · simp only [List.mem_cons, Ev.wasSet.injEq, List.not_mem_nil, reduceCtorEq, or_false] at he
    subst he
    exact ⟨rfl, _, get_set_self ht, rfl⟩
  · next k _ _ => cases k <;> simp [retEv] at he
  · next k _ => cases k <;> simp [retEv] at he

/-- The event is set already, a thread is registered. -/
example : ∃ tr s s', Exec step (init 3) tr s ∧ flag tr = true ∧ s.ths.countP Th.blocked = 1 ∧
    step s (2, .go) = some (s', [.wasSet 2, .setDone 2]) :=
  ⟨_, _, _, exec_of_run (ls := [(0, .call .wait), (0, .go), (0, .go), (1, .call .set), (1, .go), (2, .call .set)]) rfl, rfl, rfl, rfl⟩

/-- A thread about to make the system call, with a sleeper it wakes. -/
example : ∃ s s' v, Reachable step (init 2) s ∧ s.ths[1]? = some ⟨.setWake, v⟩ ∧ s.ths.countP Th.isAsleep = 1 ∧
    step s (1, .go) = some (s', [.setDone 1]) ∧ s'.ths.countP Th.isAsleep = 0 :=
  ⟨_, _, _, ⟨_, exec_of_run (ls := [(0, .call .wait), (0, .go), (0, .go), (0, .go), (1, .call .set), (1, .go)]) rfl⟩, rfl, rfl, rfl, rfl⟩

end Verif.ManualFutex
