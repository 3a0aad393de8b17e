import Verif.Proof.TssProcessMore

/-! C87: thread-specific storage when the process exits (Windows). -/

namespace Verif.TssProcess

/-- **C87 (refuted).**  The only thread there is calls `on_thread_exit` and `on_process_exit`; in between (the destructors of global objects run then) it stores a
value, whose cleanup function destroys a `thread_specific_ptr`.  The manager is used after it has been given up. -/
theorem C87_refuted_delete (tls : Bool) : ∃ tr s s', Exec (step tls) (init 1) tr s ∧ Ev.threadExited 0 ∈ tr ∧ liveKey s 1 = true ∧
    step tls s (0, .deleteKey 1) = some (s', [.ub 0]) := by
  cases tls
  · exact ⟨_, _, _, exec_of_run (ls := [(0, .newKey true), (0, .newKey true), (0, .reset 0 (some 5)), (0, .threadExit), (0, .next), (0, .next), (0, .next),
      (0, .next), (0, .next), (0, .reset 0 (some 6)), (0, .processExit), (0, .next), (0, .next), (0, .next)]) rfl, by decide, rfl, rfl⟩
  · exact ⟨_, _, _, exec_of_run (ls := [(0, .newKey true), (0, .newKey true), (0, .reset 0 (some 5)), (0, .threadExit), (0, .next), (0, .next), (0, .next),
      (0, .next), (0, .next), (0, .reset 0 (some 6)), (0, .processExit), (0, .next), (0, .next), (0, .next)]) rfl, by decide, rfl, rfl⟩

/-- **C87 (refuted).**  A value of another thread, which has not exited, is cleaned up when the process exits; the cleanup function, which stores a value itself,
cannot. -/
theorem C87_refuted_store (tls : Bool) : ∃ tr s s', Exec (step tls) (init 2) tr s ∧ Ev.cleaned 0 0 5 ∈ tr ∧ Ev.threadExited 0 ∈ tr ∧
    step tls s (0, .reset 0 (some 6)) = some (s', [.ub 0]) := by
  cases tls
  · exact ⟨_, _, _, exec_of_run (ls := [(0, .newKey true), (1, .reset 0 (some 5)), (0, .threadExit), (0, .processExit), (0, .next), (0, .next), (0, .next)]) rfl,
      by decide, by decide, rfl⟩
  · exact ⟨_, _, _, exec_of_run (ls := [(0, .newKey true), (1, .reset 0 (some 5)), (0, .threadExit), (0, .processExit), (0, .next), (0, .next), (0, .next)]) rfl,
      by decide, by decide, rfl⟩

/-- **C87 (refuted).**  With `BOOST_SYNC_DETAIL_TLS`, a thread that goes on after `on_process_exit` has returned (the library has been unloaded, or the thread is the
one that exits and has stored a value since `on_thread_exit`) reads a context that has been deleted. -/
theorem C87_refuted_get : ∃ tr s s', Exec (step true) (init 2) tr s ∧ Ev.processExited 0 ∈ tr ∧ step true s (1, .get 0) = some (s', [.ub 1]) :=
  ⟨_, _, _, exec_of_run (ls := [(0, .newKey true), (1, .reset 0 (some 5)), (0, .threadExit), (0, .processExit), (0, .next), (0, .next), (0, .next), (0, .next),
    (0, .next)]) rfl, by decide, rfl⟩

/-- **C87 (refuted).**  A thread in its own `on_thread_exit` while another one is in `on_process_exit`: both destroy the same context. -/
theorem C87_refuted_race (tls : Bool) : ∃ tr s s', Exec (step tls) (init 2) tr s ∧ Ev.processExited 0 ∈ tr ∧ step tls s (1, .next) = some (s', [.ub 1]) := by
  cases tls
  · exact ⟨_, _, _, exec_of_run (ls := [(1, .newKey true), (1, .reset 0 (some 5)), (1, .threadExit), (0, .processExit), (0, .next), (0, .next), (0, .next),
      (0, .next), (0, .next)]) rfl, by decide, rfl⟩
  · exact ⟨_, _, _, exec_of_run (ls := [(1, .newKey true), (1, .reset 0 (some 5)), (1, .threadExit), (0, .processExit), (0, .next), (0, .next), (0, .next),
      (0, .next), (0, .next)]) rfl, by decide, rfl⟩

/-- **C87 (refuted).**  All calls are safe, but a mutex locked by one thread is unlocked by another. -/
theorem C87_refuted_unlock (tls : Bool) : ∃ tr s, Exec (stepQ tls) (init 2) tr s ∧ Ev.gave 1 (.ntf 9) ∈ tr ∧ Ev.unlocked 0 9 ∈ tr := by
  cases tls
  · exact ⟨_, _, exec_of_run (ls := [(1, .notifyAtExit 9), (0, .processExit), (0, .next), (0, .next), (0, .next)]) rfl, by decide, by decide⟩
  · exact ⟨_, _, exec_of_run (ls := [(1, .notifyAtExit 9), (0, .processExit), (0, .next), (0, .next), (0, .next)]) rfl, by decide, by decide⟩

/-- **C87 (refuted).**  All calls are safe, but a callback registered by a cleanup function is deleted with the context without having been called. -/
theorem C87_refuted_lost (tls : Bool) : ∃ tr s, Exec (stepS tls) (init 1) tr s ∧ Ev.processExited 0 ∈ tr ∧ given (.cb 7) tr = 1 ∧ settled (.cb 7) tr = 0 := by
  cases tls
  · exact ⟨_, _, exec_of_run (ls := [(0, .newKey true), (0, .reset 0 (some 5)), (0, .processExit), (0, .next), (0, .next), (0, .next), (0, .atThreadExit 7),
      (0, .next), (0, .next)]) rfl, by decide, by decide, by decide⟩
  · exact ⟨_, _, exec_of_run (ls := [(0, .newKey true), (0, .reset 0 (some 5)), (0, .processExit), (0, .next), (0, .next), (0, .next), (0, .atThreadExit 7),
      (0, .next), (0, .next)]) rfl, by decide, by decide, by decide⟩

/-- **C87 (partial).**  If all calls are safe nothing is undefined: no thread uses the manager or a context after it has been deleted, and no context is
deleted twice. -/
theorem C87_no_ub_partial {tls : Bool} {n : Nat} {tr : List Ev} {s : St} (h : Exec (stepS tls) (init n) tr s) : ∀ t, Ev.ub t ∉ tr :=
  (inv_exec h).2.1

/-- **C87.**  Once `on_process_exit` has been called, the calls that are safe are exactly those that are not undefined. -/
theorem C87_exact {tls : Bool} {n : Nat} {tr : List Ev} {s s' : St} (h : Exec (stepS tls) (init n) tr s) {t : Nat} {op : Op} {es : List Ev}
    (hm : (s.mgr = .dying ∧ inHook s t = true) ∨ s.mgr = .gone) (hs : step tls s (t, op) = some (s', es)) :
    (∃ u, Ev.ub u ∈ es) ↔ lateOk tls s t op = false := by
  have hI := (inv_exec h).1
  constructor
  · rintro ⟨u, hu⟩
    cases hl : lateOk tls s t op with
    | false => rfl
    | true =>
      have hsafe : safe tls s t op = true := by
        rcases hm with ⟨h1, h2⟩ | h1
        · simp [safe, h1, h2, hl]
        · simp [safe, h1, hl]
      exact absurd hu ((good_step hI hsafe hs).ub u)
  · intro hl
    obtain ⟨rfl, _⟩ := late_ub hI (hm.imp And.left id) hl hs
    exact ⟨t, List.mem_singleton.mpr rfl⟩

/-- **C87 (partial).**  If all calls are safe nothing is dealt with that has not been handed over or has been dealt with already. -/
theorem C87_at_most_partial {tls : Bool} {n : Nat} {tr : List Ev} {s : St} (h : Exec (stepS tls) (init n) tr s) (x : Item) : settled x tr ≤ given x tr := by
  have := (inv_exec h).2.2 x
  omega

/-- **C87 (partial).**  If all calls are safe, when `on_process_exit` returns everything that has been handed over by any thread has been dealt with, as often as it
has been handed over, or it is a callback that has been lost. -/
theorem C87_dealt_partial {tls : Bool} {n : Nat} {tr : List Ev} {s s' : St} (h : Exec (stepS tls) (init n) tr s) {t u : Nat} {op : Op} {es : List Ev}
    (hs : stepS tls s (t, op) = some (s', es)) (he : Ev.processExited u ∈ es) (x : Item) :
    given x (tr ++ es) = settled x (tr ++ es) + lostIn x (tr ++ es) := by
  obtain ⟨h1, h2⟩ := stepS_eq hs
  have hex := exited_none (inv_exec h).1 h1 h2 he
  have hI := inv_exec (h.snoc hs)
  have := hI.2.2 x
  rw [held_none hI.1 hex x] at this
  exact this

/-- **C87 (partial).**  If moreover the cleanup functions called by the hooks do not register callbacks, none is lost: when `on_process_exit` returns every value
has been passed to the cleanup function of its key (if it has one), every callback has been called and every mutex has been unlocked. -/
theorem C87_all_dealt_partial {tls : Bool} {n : Nat} {tr : List Ev} {s s' : St} (h : Exec (stepQ tls) (init n) tr s) {t u : Nat} {op : Op} {es : List Ev}
    (hs : stepQ tls s (t, op) = some (s', es)) (he : Ev.processExited u ∈ es) (x : Item) : given x (tr ++ es) = settled x (tr ++ es) := by
  have h0 : lostIn x (tr ++ es) = 0 := by
    refine List.countP_eq_zero.mpr fun e hm => ?_
    cases e with
    | lost a b => exact absurd hm ((not_lost (h.snoc hs)).2 a b)
    | _ => nofun
  have := C87_dealt_partial (execS_of_execQ h) (stepQ_eq hs).1 he x
  omega

/-- **C87.**  A value that is dealt with is passed to the cleanup function of the `thread_specific_ptr` that has its key then, unless there is none.  (That may be
another one than the value was stored in: C61.) -/
theorem C87_function {tls : Bool} {n : Nat} {tr : List Ev} {s s' : St} (h : Exec (step tls) (init n) tr s) {t : Nat} {op : Op} {es : List Ev}
    (hs : step tls s (t, op) = some (s', es)) {u k v : Nat} :
    (Ev.cleaned u k v ∈ es → cleanupOf k tr = true) ∧ (Ev.dropped u k v ∈ es → cleanupOf k tr = false) := by
  have hT := (tab_exec h).table k
  obtain ⟨h1, h2⟩ := (step_tab hs).1 u k v
  refine ⟨fun hm => ?_, fun hm => ?_⟩
  · rw [← hT, h1 hm]; rfl
  · have := h2 hm
    rw [← hT]
    cases hk : s.table[k]? with
    | none => rfl
    | some b => cases b with
      | false => rfl
      | true => exact absurd hk this

/-- **C87.**  `on_process_exit` ends: wherever it is, if the functions it calls do not call the library from then on, it returns after finitely many steps. -/
theorem C87_ends {tls : Bool} {n : Nat} {tr : List Ev} {s : St} (h : Exec (stepS tls) (init n) tr s) (hm : s.mgr = .dying) {t : Nat} (ht : inHook s t = true) :
    ∃ m s' es, runFrom (stepS tls) s (List.replicate m (t, .next)) = some (s', es) ∧ s'.mgr = .gone ∧ Ev.processExited t ∈ es := by
  have hI := (inv_exec h).1
  unfold inHook at ht
  split at ht
  · next th hth =>
    obtain ⟨j, hj⟩ := Option.isSome_iff_exists.mp ht
    exact ends _ hI hm hth hj (Nat.le_refl _)
  · cases ht

/-- **C87.**  Hooks called again after `on_process_exit` do nothing: `on_process_exit` in either build, `on_thread_exit` if the contexts are found with
`TlsGetValue`. -/
theorem C87_again {tls : Bool} {n : Nat} {tr : List Ev} {s s' : St} (h : Exec (stepS tls) (init n) tr s) (hm : s.mgr = .gone) {t : Nat} {es : List Ev} :
    (step tls s (t, .processExit) = some (s', es) → s' = s ∧ es = [.processExited t]) ∧
    (step false s (t, .threadExit) = some (s', es) → s' = s ∧ es = [.threadExited t]) := by
  have hI := (inv_exec h).1
  have hk := (hI.gone hm).1
  constructor
  · intro hs
    unfold step at hs
    simp only at hs
    split at hs
    · cases hs
    · rw [if_neg (by rw [hI.alive]; nofun)] at hs
      split at hs
      · unfold processExit at hs
        rw [if_neg (by rw [hm]; nofun), if_neg (by rw [hm]; nofun)] at hs
        simp only [Option.some.injEq, Prod.mk.injEq] at hs
        obtain ⟨rfl, rfl⟩ := hs
        exact ⟨by rw [← hk], rfl⟩
      · cases hs
  · intro hs
    unfold step at hs
    simp only at hs
    split at hs
    · cases hs
    · rw [if_neg (by rw [hI.alive]; nofun)] at hs
      split at hs
      · unfold threadExit at hs
        rw [if_neg (by rw [hm]; nofun)] at hs
        simp only [ctxPtr, hk, Bool.not_false, Bool.and_self, if_true, Option.some.injEq, Prod.mk.injEq] at hs
        exact ⟨hs.1.symm, hs.2.symm⟩
      · cases hs

/-- **C87.**  After `on_process_exit`, if the contexts are found with `TlsGetValue`, no thread finds a value; no value can be stored, since the call is undefined. -/
theorem C87_get_after {n : Nat} {tr : List Ev} {s s' : St} (h : Exec (stepS false) (init n) tr s) (hm : s.mgr = .gone) {t k : Nat} {es : List Ev} :
    (step false s (t, .get k) = some (s', es) → s' = s ∧ es = [.got t k none]) ∧
    (∀ v, step false s (t, .reset k (some v)) = some (s', es) → es = [.ub t]) ∧
    (step false s (t, .reset k none) = some (s', es) → s' = s ∧ es = []) := by
  have hI := (inv_exec h).1
  have hk := (hI.gone hm).1
  refine ⟨fun hs => ?_, fun v hs => ?_, fun hs => ?_⟩
  · unfold step at hs
    simp only at hs
    split at hs
    · cases hs
    · rw [if_neg (by rw [hI.alive]; nofun)] at hs
      split at hs
      · simp only [ctxPtr, hk, Bool.not_false, Bool.and_self, if_true, Option.some.injEq, Prod.mk.injEq] at hs
        exact ⟨hs.1.symm, hs.2.symm⟩
      · cases hs
  · refine (late_ub hI (.inr hm) ?_ hs).1
    cases ht : s.threads[t]? with
    | none => unfold step at hs; simp [ht] at hs
    | some th =>
      simp only [lateOk, hasCtx, ht, hk]
      split
      · next e => simp at e ⊢
      · simp
  · unfold step at hs
    simp only at hs
    split at hs
    · cases hs
    · rw [if_neg (by rw [hI.alive]; nofun)] at hs
      split at hs
      · simp only [reset, ctxPtr, hk, Bool.not_false, Bool.and_self, if_true, Option.some.injEq, Prod.mk.injEq] at hs
        exact ⟨hs.1.symm, hs.2.symm⟩
      · cases hs

/-! ### Examples: the hypotheses can be met -/

/-- Two threads store values, register callbacks and hand over a mutex; a callback registers another one; a cleanup function stores another value; the process
exits while the second thread has not. -/
def demo : List (Nat × Op) :=
  [(0, .newKey true), (0, .newKey false), (0, .reset 0 (some 5)), (1, .reset 0 (some 6)), (1, .reset 1 (some 7)), (0, .atThreadExit 1), (1, .atThreadExit 2),
   (1, .notifyAtExit 9), (0, .threadExit), (0, .next), (0, .next), (0, .atThreadExit 3), (0, .next), (0, .next), (0, .next), (0, .next), (0, .next),
   (0, .reset 0 (some 8)), (0, .next), (0, .next), (0, .next), (0, .next),
   (0, .processExit), (0, .next), (0, .next), (0, .get 0), (0, .next), (0, .next), (0, .next), (0, .next), (0, .next), (0, .next)]

example : (runFrom (stepQ true) (init 2) (demo ++ [(0, .next)])).map (·.2) = some
    [.key 0 0 true, .key 0 1 false, .gave 0 (.val 0 5), .gave 1 (.val 0 6), .gave 1 (.val 1 7), .gave 0 (.cb 1), .gave 1 (.cb 2), .gave 1 (.ntf 9),
     .ran 0 1, .gave 0 (.cb 3), .ran 0 3, .cleaned 0 0 5, .gave 0 (.val 0 8), .cleaned 0 0 8, .threadExited 0,
     .ran 0 2, .got 0 0 none, .cleaned 0 0 6, .dropped 0 1 7, .unlocked 0 9, .processExited 0] := by decide

example : ∃ tr s s' es, Exec (stepQ false) (init 2) tr s ∧ stepQ false s (0, .next) = some (s', es) ∧ Ev.processExited 0 ∈ es ∧
    given (.val 0 6) (tr ++ es) = 1 :=
  ⟨_, _, _, _, exec_of_run (ls := demo) rfl, rfl, by decide, by decide⟩

example : ∃ tr s s' es, Exec (stepS true) (init 2) tr s ∧ stepS true s (0, .next) = some (s', es) ∧ Ev.processExited 0 ∈ es :=
  ⟨_, _, _, _, exec_of_run (ls := demo) rfl, rfl, by decide⟩

example : ∃ tr s, Exec (stepS true) (init 2) tr s ∧ s.mgr = .dying ∧ inHook s 0 = true ∧
    (∃ r, step true s (0, .get 0) = some r) ∧ ∃ r, step true s (0, .newKey true) = some r :=
  ⟨_, _, exec_of_run (ls := demo.take 26) rfl, rfl, rfl, ⟨_, rfl⟩, ⟨_, rfl⟩⟩

example : ∃ tr s, Exec (stepS false) (init 2) tr s ∧ s.mgr = .gone ∧ (∃ r, step false s (1, .processExit) = some r) ∧ (∃ r, step false s (1, .threadExit) = some r) ∧
    (∃ r, step false s (1, .get 0) = some r) ∧ (∃ r, step false s (1, .reset 0 none) = some r) ∧ ∃ r, step false s (1, .reset 0 (some 3)) = some r :=
  ⟨_, _, exec_of_run (ls := demo ++ [(0, .next)]) rfl, rfl, ⟨_, rfl⟩, ⟨_, rfl⟩, ⟨_, rfl⟩, ⟨_, rfl⟩, ⟨_, rfl⟩⟩

example : ∃ tr s s' es, Exec (step true) (init 2) tr s ∧ step true s (0, .next) = some (s', es) ∧ Ev.cleaned 0 0 6 ∈ es ∧ cleanupOf 0 tr = true ∧ cleanupOf 1 tr = false :=
  ⟨_, _, _, _, exec_of_run (ls := demo.take 28) rfl, rfl, by decide, rfl, rfl⟩

end Verif.TssProcess
