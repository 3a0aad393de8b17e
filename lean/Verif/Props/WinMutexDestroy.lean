import Verif.Proof.WinMutex

/-! C81: what `unlock` of the Windows mutex does after the mutex was released. -/

namespace Verif.WinMutex

/-- Thread 1 waits in `lock`; thread 0 releases the mutex and stops before line 88; thread 2 locks, unlocks and wakes
thread 1, which locks and unlocks. -/
def lastUser : List (Nat × Act) :=
  [(0, .call .lock), (0, .go), (1, .call .lock), (1, .go), (1, .go), (1, .go), (0, .callUnlock), (0, .go),
   (2, .call .lock), (2, .go), (2, .callUnlock), (2, .go), (2, .go), (2, .go), (1, .go), (1, .go), (1, .callUnlock), (1, .go)]

/-- **C81**, refuted: thread 1 is the last to lock and unlock the mutex, nobody else is locking it and nobody owns it, so
thread 1 may destroy it; yet the `unlock` of thread 0, whose release was long ago, writes to the word. -/
theorem C81_refuted : ∃ tr s s', Exec step (init 3) tr s ∧
    tr = [.called 0 .lock, .acquired 0 .lock .fast, .called 1 .lock, .released 0, .called 2 .lock, .acquired 2 .lock .fast,
      .released 2, .signalled 2, .consumed 1, .acquired 1 .lock .woken, .released 1] ∧
    (∀ t, t = 1 ∨ t = 2 → ∃ th, s.ths[t]? = some th ∧ th.pc = .idle) ∧
    step s (0, .go) = some (s', []) ∧ s'.word.val ≠ s.word.val := by
  refine ⟨_, _, _, exec_of_run (ls := lastUser) rfl, rfl, ?_, rfl, by decide⟩
  rintro t (rfl | rfl)
  · exact ⟨_, rfl, rfl⟩
  · exact ⟨_, rfl, rfl⟩

/-- **C81**, what holds: `unlock` accesses the mutex after the release only if a thread was registered as waiting when the
mutex was released.  Missing: releases while threads are waiting, for which the property is false. -/
theorem C81_partial (n : Nat) (hn : n < 2 ^ 30) (tr : List Ev) (s s' : St) (h : Exec step (init n) tr s) (t : Nat)
    (l : Nat × Act) (es : List Ev) (hs : step s l = some (s', es)) (he : Ev.released t ∈ es)
    (hw : ∀ (i : Nat) (th : Th), s.ths[i]? = some th → th.blocked = false) :
    ∃ th, s'.ths[t]? = some th ∧ th.pc = .idle := by
  have I := inv_exec hn h
  have hc : C s.word.val = 0 := by rw [I.cnt]; exact countP_eq_zero_of_forall hw
  obtain ⟨u, a⟩ := l
  unfold step at hs
  simp only at hs
  split at hs
  · cases hs
  next th hth =>
  obtain ⟨pc, v⟩ := th
  simp only at hs
  have hl : pc = .unlAdd → L s.word.val = 1 := by
    rintro rfl
    have h1 := countP_pos_of_get (p := Th.owns) hth rfl
    have := L_lt s.word.val
    have := I.lock
    omega
  split at hs
  all_goals (repeat' split at hs)
  all_goals first
    | contradiction
    | skip
  all_goals
    simp only [Option.some.injEq, Prod.mk.injEq] at hs
    obtain ⟨rfl, rfl⟩ := hs
  all_goals first
    | (simp at he; done)
    | skip
  all_goals
    simp only [List.mem_singleton, Ev.released.injEq] at he
    subst he
  · next hcond =>
    simp only [Bool.and_eq_true, Bool.not_eq_true'] at hcond
    have := (gt_lock_iff (hl rfl) (isFlagged_false.mp hcond.1)).mp hcond.2
    omega
  · exact ⟨_, get_set_self hth, rfl⟩

/-- A release while another thread has already registered and given up. -/
example : ∃ tr s s' es, Exec step (init 2) tr s ∧ step s (0, .go) = some (s', es) ∧ Ev.released 0 ∈ es ∧ Ev.failed 1 .timed ∈ tr ∧
    ∀ th ∈ s.ths, th.blocked = false :=
  ⟨_, _, _, _, exec_of_run (ls := [(0, .call .lock), (0, .go), (1, .call .timed), (1, .go), (1, .go), (1, .go), (1, .timeout),
    (1, .go), (0, .callUnlock)]) rfl, rfl, by decide, by decide, by decide⟩

end Verif.WinMutex
