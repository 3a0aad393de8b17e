import Verif.Proof.TssAlloc

/-! C86: thread-specific storage when memory or other resources are exhausted. -/

namespace Verif.TssAlloc

/-- Nothing fails. -/
def fine : Fails := ⟨false, false, false, false, false⟩

/-- **C86 (refuted).**  A call that fails can leak memory: if locking the mutex of the manager fails while the context of the thread is created, the context
is never deleted, not even after the thread has exited. -/
theorem C86_refuted_leak : ∃ tr s s', Exec step (init 1) tr s ∧
    step s (.atThreadExit 0, { fine with lock := true }) = some (s', [.ended (.atThreadExit 0) .threw]) ∧ s.lost = [] ∧ s'.lost.length = 1 ∧
    ∃ s'', step s' (.exit 0, fine) = some (s'', [.ended (.exit 0) .done]) ∧ s''.lost = s'.lost :=
  ⟨_, _, _, .init, rfl, rfl, rfl, _, rfl, rfl⟩

/-- **C86 (refuted).**  A call can fail without saying so: if storing the pointer to the context fails, `reset` returns normally, but the value is not found
afterwards and is not cleaned up when the thread exits. -/
theorem C86_refuted_value : ∃ tr s s', Exec step (init 1) tr s ∧
    step s (.reset 0 0 (some 5), { fine with slot := true }) = some (s', [.ended (.reset 0 0 (some 5)) .done]) ∧
    valueOf s' 0 0 = none ∧ ∃ s'', step s' (.exit 0, fine) = some (s'', [.ended (.exit 0) .done]) :=
  ⟨_, _, _, exec_of_run (ls := [(.newKey true, fine)]) rfl, rfl, rfl, _, rfl⟩

/-- **C86 (refuted).**  The same for a callback: `at_thread_exit` returns normally, but the callback is not called when the thread exits, and its function object
is never deleted. -/
theorem C86_refuted_callback : ∃ s s' i, step (init 1) (.atThreadExit 0, { fine with slot := true }) =
    some (s, [.kept i, .ended (.atThreadExit 0) .done]) ∧
    step s (.exit 0, fine) = some (s', [.ended (.exit 0) .done]) ∧ s'.functors = [i] :=
  ⟨_, _, _, rfl, rfl, rfl⟩

/-- **C86 (refuted).**  Deleting a key (the destructor of `thread_specific_ptr`) terminates the process if memory is exhausted, although nobody holds a value. -/
theorem C86_refuted_delete : ∃ tr s s', Exec step (init 1) tr s ∧ (∀ t k, valueOf s t k = none) ∧
    step s (.deleteKey 0, { fine with grow := true }) = some (s', [.ended (.deleteKey 0) .aborted]) ∧ s'.dead = true :=
  ⟨_, _, _, exec_of_run (ls := [(.newKey true, fine)]) rfl, fun t k => by
    match t with
    | 0 => rfl
    | t + 1 => rfl, rfl, rfl⟩

/-- **C86 (partial).**  A call that throws has changed nothing that anybody can see and has leaked nothing, provided that, if it has to create the context of the
thread, locking the mutex of the manager and storing the pointer work. -/
theorem C86_unchanged_partial {n : Nat} {tr : List Ev} {s s' : St} (_h : Exec step (init n) tr s) {op : Op} {f : Fails} {es : List Ev}
    (hs : step s (op, f) = some (s', es)) (hS : Sound s op f) (hr : Ev.ended op .threw ∈ es) :
    Same s s' ∧ es = [.ended op .threw] := by
  obtain ⟨_, ha, rfl, rfl⟩ := step_eq hs
  have ht : (call s op f).2.1 = .threw := by
    rcases List.mem_append.mp hr with hm | hm
    · exfalso
      revert hm
      cases op <;> simp [call]
    · simpa using (List.mem_singleton.mp hm).symm
  obtain ⟨h1, h2⟩ := call_threw ha hS ht
  exact ⟨⟨h1.values, h1.callbacks, h1.notifs, h1.functors, h1.locked, h1.table, h1.freed, h1.lost⟩, by rw [h2, ht]; rfl⟩

/-- **C86 (partial).**  A call that returns normally has done what it is for, under the same proviso. -/
theorem C86_effect_partial {n : Nat} {tr : List Ev} {s s' : St} (h : Exec step (init n) tr s) {op : Op} {f : Fails} {es : List Ev}
    (hs : step s (op, f) = some (s', es ++ [.ended op .done])) (hS : Sound s op f) : Effect s op es s' := by
  obtain ⟨_, ha, rfl, he⟩ := step_eq hs
  obtain ⟨e1, e2⟩ := List.append_inj' he rfl
  have hd : (call s op f).2.1 = .done := by simpa using e2.symm
  subst e1
  have := call_done (inv_exec h) ha hS hd
  cases op <;> exact this

/-- **C86.**  `release` never fails, whatever is exhausted. -/
theorem C86_release {n : Nat} {tr : List Ev} {s s' : St} (_h : Exec step (init n) tr s) {t k : Nat} {f : Fails} {es : List Ev}
    (hs : step s (.release t k, f) = some (s', es)) : es = [.ptr (valueOf s t k), .ended (.release t k) .done] := by
  obtain ⟨_, ha, rfl, rfl⟩ := step_eq hs
  simp [call, release_done, release_ptr]

/-- **C86.**  Whatever fails, every function object registered with `at_thread_exit` either exists or has been called, and not both; none is called twice, and
none is called that was not registered. -/
theorem C86_accounted {n : Nat} {tr : List Ev} {s : St} (h : Exec step (init n) tr s) :
    (keptIn tr).Perm (s.functors ++ calledIn tr) ∧ (s.functors ++ calledIn tr).Nodup := by
  have hp : (keptIn tr).Perm (s.functors ++ calledIn tr) :=
    List.perm_iff_count.mpr fun x => by rw [List.count_append]; exact (inv_exec h).count x
  exact ⟨hp, hp.nodup_iff.mp (inv_exec h).nodup⟩

/-- **C86.**  When no context has been lost and all threads have exited, nothing is left: every function object registered has been called and deleted, every
mutex handed over has been unlocked. -/
theorem C86_nothing_left {n : Nat} {tr : List Ev} {s : St} (h : Exec step (init n) tr s) (hd : s.dead = false) (hl : s.lost = [])
    (hc : ∀ t, ctxOf s t = none) : s.functors = [] ∧ s.locked = [] ∧ (keptIn tr).Perm (calledIn tr) := by
  have hH := (inv_exec h).held hd
  have hf : s.functors = [] := List.eq_nil_iff_forall_not_mem.mpr fun x hx => by
    have h1 := List.count_pos_iff.mpr hx
    have h2 := hH.functors x
    rw [load_nil hc hl] at h2
    omega
  refine ⟨hf, List.eq_nil_iff_forall_not_mem.mpr fun x hx => ?_, ?_⟩
  · have h1 := List.count_pos_iff.mpr hx
    have h2 := hH.locked x
    rw [load_nil hc hl] at h2
    omega
  · have := (C86_accounted h).1
    rwa [hf] at this

/-! ### Examples: the hypotheses can be met -/

/-- Two callbacks, a registration that fails for want of memory, a value, a mutex; the thread exits. -/
def demo : List (Op × Fails) :=
  [(.newKey true, fine), (.atThreadExit 0, fine), (.atThreadExit 0, { fine with grow := true }), (.atThreadExit 0, fine),
   (.reset 0 0 (some 5), { fine with grow := true }), (.reset 0 0 (some 6), fine), (.notifyAtExit 0 9, fine), (.exit 0, fine)]

example : (runFrom step (init 2) demo).map (·.2) = some
    [.key 0, .ended (.newKey true) .done, .kept 0, .ended (.atThreadExit 0) .done, .ended (.atThreadExit 0) .threw,
     .kept 2, .ended (.atThreadExit 0) .done, .ended (.reset 0 0 (some 5)) .threw, .ended (.reset 0 0 (some 6)) .done,
     .ended (.notifyAtExit 0 9) .done, .called 2, .called 0, .cleaned 6, .unlocked 9, .ended (.exit 0) .done] := by decide

example : ∃ tr s, Exec step (init 2) tr s ∧ s.dead = false ∧ s.lost = [] ∧ (∀ t, ctxOf s t = none) ∧ keptIn tr = [0, 2] :=
  ⟨_, _, exec_of_run (ls := demo) rfl, rfl, rfl, fun t => by
    match t with
    | 0 => rfl
    | 1 => rfl
    | t + 2 => rfl, rfl⟩

example : ∃ tr s s' es, Exec step (init 2) tr s ∧ step s (.reset 0 0 (some 5), { fine with lock := true, slot := true, grow := true }) =
    some (s', es) ∧ Sound s (.reset 0 0 (some 5)) { fine with lock := true, slot := true, grow := true } ∧
    Ev.ended (.reset 0 0 (some 5)) .threw ∈ es :=
  ⟨_, _, _, _, exec_of_run (ls := demo.take 4) rfl, rfl, fun t ht hc => by cases ht; exact absurd hc nofun, List.mem_singleton.mpr rfl⟩

example : ∃ tr s s', Exec step (init 2) tr s ∧
    step s (.release 0 0, ⟨true, true, true, true, true⟩) = some (s', [.ptr (some 6), .ended (.release 0 0) .done]) :=
  ⟨_, _, _, exec_of_run (ls := demo.take 6) rfl, rfl⟩

end Verif.TssAlloc
