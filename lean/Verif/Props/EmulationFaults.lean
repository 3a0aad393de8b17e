import Verif.Props.Emulation
import Verif.Proof.ThrownCalls

/-!
# C76, C77: interrupted waits and failures inside the emulations

C76 asks whether a wake-up may be lost when the OS interrupts a wait (platforms for which
`BOOST_SYNC_HAS_PTHREAD_EINTR_BUG` is defined), C77 what remains of an operation that was left by an exception.
-/

namespace Verif.Monitor

open Verif.Atomic (Kind Op Ev Obj One SetReset Linearizable eventObj flagObj counterObj lockObj withoutThrown successes signalsCalled
  signalsDone)

variable {D S : Type}

/-! ## C76: interrupted waits -/

/-- Thread 0 waits; its OS wait is interrupted; thread 1 signals and finds nobody to notify; thread 0 gets the mutex back and waits
again, without a look at the data. -/
def interrupted (x : S) : List (Nat × Act S) :=
  [(0, .call (.acq .wait)), (0, .go), (0, .go), (0, .spurious), (1, .call (.sig x)), (1, .go), (1, .go), (1, .go),
   (1, .go), (0, .early), (0, .go)]

/-- `wait()` of the event sleeps although the event is set, the post has returned and no thread can take a step. -/
theorem C76_refuted_auto_event : ∃ tr s, Exec (step (autoEvent interrupts)) (init (autoEvent interrupts) 2) tr s ∧
    tr = [.called 0 (.acq .wait), .called 1 (.sig .post), .ret 1 (.sig .post) true] ∧
    s.d = true ∧ s.ths = [.asleep .wait, .idle] ∧ Quiescent (autoEvent interrupts) s :=
  ⟨_, _, exec_of_run (ls := interrupted .post) rfl, rfl, rfl, rfl, by
    intro t a ha
    match t, a, ha with
    | 0, .go, _ | 0, .wake _ _, _ | 1, .go, _ | 1, .wake _ _, _ => rfl
    | t + 2, .go, _ | t + 2, .wake _ _, _ => rfl⟩

theorem C76_refuted_manual_event : ∃ tr s, Exec (step (manualEvent interrupts)) (init (manualEvent interrupts) 2) tr s ∧
    tr = [.called 0 (.acq .wait), .called 1 (.sig .set), .ret 1 (.sig .set) true] ∧
    s.d = true ∧ s.ths = [.asleep .wait, .idle] ∧ Quiescent (manualEvent interrupts) s :=
  ⟨_, _, exec_of_run (ls := interrupted .set) rfl, rfl, rfl, rfl, by
    intro t a ha
    match t, a, ha with
    | 0, .go, _ | 0, .wake _ _, _ | 1, .go, _ | 1, .wake _ _, _ => rfl
    | t + 2, .go, _ | t + 2, .wake _ _, _ => rfl⟩

theorem C76_refuted_semaphore : ∃ tr s, Exec (step (semaphore interrupts 0)) (init (semaphore interrupts 0) 2) tr s ∧
    tr = [.called 0 (.acq .wait), .called 1 (.sig .post), .ret 1 (.sig .post) true] ∧
    s.d = 1 ∧ s.ths = [.asleep .wait, .idle] ∧ Quiescent (semaphore interrupts 0) s :=
  ⟨_, _, exec_of_run (ls := interrupted .post) rfl, rfl, rfl, rfl, by
    intro t a ha
    match t, a, ha with
    | 0, .go, _ | 0, .wake _ _, _ | 1, .go, _ | 1, .wake _ _, _ => rfl
    | t + 2, .go, _ | t + 2, .wake _ _, _ => rfl⟩

/-- Thread 1 owns the mutex, thread 0 waits for it and is interrupted, thread 1 unlocks: nobody owns the mutex, thread 0 sleeps in
`lock()`. -/
theorem C76_refuted_timed_mutex : ∃ tr s, Exec (step (timedMutex interrupts)) (init (timedMutex interrupts) 2) tr s ∧
    tr = [.called 1 (.acq .wait), .ret 1 (.acq .wait) true, .called 0 (.acq .wait), .called 1 (.sig .post),
      .ret 1 (.sig .post) true] ∧
    s.d = false ∧ s.ths = [.asleep .wait, .idle] ∧ Quiescent (timedMutex interrupts) s :=
  ⟨_, _, exec_of_run (ls := [(1, .call (.acq .wait)), (1, .go), (1, .go), (1, .go), (1, .go)] ++ interrupted .post) rfl, rfl, rfl,
    rfl, by
    intro t a ha
    match t, a, ha with
    | 0, .go, _ | 0, .wake _ _, _ | 1, .go, _ | 1, .wake _ _, _ => rfl
    | t + 2, .go, _ | t + 2, .wake _ _, _ => rfl⟩

/-- Without interruptions the workaround changes nothing. -/
theorem step_not_early {M : Mon D S} {s : St D S} {l : Nat × Act S} (h : l.2 ≠ .early) :
    step M s l = step { M with rewaits := noRewait } s l := by
  obtain ⟨t, a⟩ := l
  unfold step
  simp only
  split
  · rfl
  · cases a <;> first | (exact absurd rfl h) | (split <;> first | rfl | contradiction)

theorem run_not_early {M : Mon D S} {ls : List (Nat × Act S)} {s : St D S} (h : ∀ l ∈ ls, l.2 ≠ .early) :
    runFrom (step M) s ls = runFrom (step { M with rewaits := noRewait }) s ls := by
  induction ls generalizing s with
  | nil => rfl
  | cons l ls ih =>
    simp only [runFrom]
    rw [step_not_early (h l (by simp))]
    split
    · rfl
    · rw [ih (fun l hl => h l (List.mem_cons_of_mem _ hl))]

/-- Executions in which no wait is interrupted lose no wake-up, whatever the platform: where no thread can take a step by itself,
threads sleep only if the object is not ready. -/
theorem C76_partial {ls : List (Nat × Act One)} {n : Nat} {i : UInt32} (hne : ∀ l ∈ ls, l.2 ≠ .early) :
    (∀ s tr, runFrom (step (autoEvent interrupts)) (init (autoEvent interrupts) n) ls = some (s, tr) →
      Quiescent (autoEvent interrupts) s → ∀ (t : Nat) k, s.ths[t]? = some (.asleep k) → s.d = false) ∧
    (∀ s tr, runFrom (step (semaphore interrupts i)) (init (semaphore interrupts i) n) ls = some (s, tr) →
      Quiescent (semaphore interrupts i) s → ∀ (t : Nat) k, s.ths[t]? = some (.asleep k) → s.d = 0) ∧
    (∀ s tr, runFrom (step (timedMutex interrupts)) (init (timedMutex interrupts) n) ls = some (s, tr) →
      Quiescent (timedMutex interrupts) s → ∀ (t : Nat) k, s.ths[t]? = some (.asleep k) → s.d = true) := by
  have quiet : ∀ {D : Type} {M : Mon D One} {s : St D One}, Quiescent M s → Quiescent { M with rewaits := noRewait } s := by
    intro D M s q t a ha
    rw [← step_not_early (M := M) (by rintro rfl; cases ha)]
    exact q t a ha
  refine ⟨?_, ?_, ?_⟩
  · intro s tr hr q t k ht
    rw [run_not_early hne] at hr
    have hx := exec_of_run (step := step (autoEvent noRewait)) (s := init (autoEvent noRewait) n) hr
    exact tokens_quiescent autoEvent_tokens (by intro d hd; cases d <;> first | decide | cases hd) hx (quiet q) ht
  · intro s tr hr q t k ht
    rw [run_not_early hne] at hr
    have hx := exec_of_run (step := step (semaphore noRewait i)) (s := init (semaphore noRewait i) n) hr
    have := tokens_quiescent (semaphore_tokens i) (by
      intro d hd
      have h0 : d ≠ 0 := by simpa [semaphore] using hd
      have h1 : d.toNat ≠ 0 := fun h => h0 (UInt32.toNat_inj.mp (by simpa using h))
      omega) hx (quiet q) ht
    simpa [semaphore] using this
  · intro s tr hr q t k ht
    rw [run_not_early hne] at hr
    have hx := exec_of_run (step := step (timedMutex noRewait)) (s := init (timedMutex noRewait) n) hr
    have := tokens_quiescent timedMutex_tokens (by intro d hd; cases d <;> first | decide | cases hd) hx (quiet q) ht
    simpa [timedMutex] using this

theorem C76_manual_event_partial {ls : List (Nat × Act SetReset)} {n : Nat} (hne : ∀ l ∈ ls, l.2 ≠ .early) {s : St Bool SetReset}
    {tr : List (Ev SetReset)} (hr : runFrom (step (manualEvent interrupts)) (init (manualEvent interrupts) n) ls = some (s, tr))
    (q : Quiescent (manualEvent interrupts) s) {t : Nat} {k : Kind} (ht : s.ths[t]? = some (.asleep k)) : s.d = false := by
  rw [run_not_early hne] at hr
  have hx := exec_of_run (step := step (manualEvent noRewait)) (s := init (manualEvent noRewait) n) hr
  refine broadcast_quiescent manualEvent_broadcast hx (fun u a ha => ?_) ht
  have e := step_not_early (M := manualEvent interrupts) (s := s) (l := (u, a)) (by rintro rfl; cases ha)
  rw [q u a ha] at e
  exact e.symm

/-- A sleeping thread in a state where no thread can step, reached without interruption (all four components). -/
example : (∀ l ∈ [(0, Act.call (Op.acq .wait)), (0, .go), (0, (.go : Act One))], l.2 ≠ .early) ∧
    (runFrom (step (autoEvent interrupts)) (init (autoEvent interrupts) 1) [(0, .call (.acq .wait)), (0, .go), (0, .go)]).map
      (·.1.ths) = some [.asleep .wait] ∧
    (runFrom (step (semaphore interrupts 0)) (init (semaphore interrupts 0) 1) [(0, .call (.acq .wait)), (0, .go), (0, .go)]).map
      (·.1.ths) = some [.asleep .wait] ∧
    (runFrom (step (timedMutex interrupts)) (init (timedMutex interrupts) 2) ([(1, .call (.acq .wait)), (1, .go), (1, .go), (1, .go),
      (1, .go)] ++ [(0, .call (.acq .timed)), (0, .go), (0, .go)])).map (·.1.ths) = some [.asleep .timed, .idle] ∧
    (runFrom (step (manualEvent interrupts)) (init (manualEvent interrupts) 1) [(0, .call (.acq .wait)), (0, .go), (0, .go)]).map
      (·.1.ths) = some [.asleep .wait] := by decide +kernel

/-! ## C77: an operation that throws leaves no trace -/

/-- Remove all calls that threw from the history of an event: what remains is a history of the atomic event, with all the returns of
the original one. -/
theorem C77_auto_event {c : Kind → Bool} {n : Nat} {tr : List (Ev One)} {s : St Bool One}
    (h : Exec (step (autoEvent c)) (init (autoEvent c) n) tr s) :
    Linearizable eventObj n (withoutThrown tr) ∧ (∀ ev ∈ withoutThrown tr, ev.isThrown = false) ∧
    (withoutThrown tr).filter Ev.isRet = tr.filter Ev.isRet :=
  ⟨⟨_, Atomic.withoutThrown_exec (refines h)⟩, Atomic.withoutThrown_isThrown tr, Atomic.withoutThrown_isRet tr⟩

theorem C77_manual_event {c : Kind → Bool} {n : Nat} {tr : List (Ev SetReset)} {s : St Bool SetReset}
    (h : Exec (step (manualEvent c)) (init (manualEvent c) n) tr s) :
    Linearizable flagObj n (withoutThrown tr) ∧ (∀ ev ∈ withoutThrown tr, ev.isThrown = false) ∧
    (withoutThrown tr).filter Ev.isRet = tr.filter Ev.isRet := by
  have := refines h
  rw [manualEvent_obj] at this
  exact ⟨⟨_, Atomic.withoutThrown_exec this⟩, Atomic.withoutThrown_isThrown tr, Atomic.withoutThrown_isRet tr⟩

theorem C77_semaphore {c : Kind → Bool} {i : UInt32} {n : Nat} {tr : List (Ev One)} {s : St UInt32 One}
    (h : Exec (step (semaphore c i)) (init (semaphore c i) n) tr s) (hb : i.toNat + signalsCalled tr < 2 ^ 32) :
    Linearizable (counterObj i.toNat) n (withoutThrown tr) ∧ (∀ ev ∈ withoutThrown tr, ev.isThrown = false) ∧
    (withoutThrown tr).filter Ev.isRet = tr.filter Ev.isRet :=
  ⟨⟨_, Atomic.withoutThrown_exec (counter_of_uint32 (refines h) hb)⟩, Atomic.withoutThrown_isThrown tr, Atomic.withoutThrown_isRet tr⟩

theorem threw_timed {c : Kind → Bool} {n : Nat} {tr : List (Ev One)} {s : St Bool One}
    (h : Exec (step (timedMutex c)) (init (timedMutex c) n) tr s) : ∀ t op, .threw t op ∈ tr → op = .acq .timed := by
  refine h.invariant (fun tr _ => ∀ t op, .threw t op ∈ tr → op = .acq .timed) (by intro t op h; cases h) ?_
  intro tr s l s' es ih hs t op hm
  rcases List.mem_append.mp hm with hm | hm
  · exact ih t op hm
  obtain ⟨u, a⟩ := l
  unfold step at hs
  simp only at hs
  split at hs
  · cases hs
  next pc ht =>
  split at hs
  all_goals (repeat' split at hs)
  all_goals first | contradiction | skip
  all_goals simp only [Option.some.injEq, Prod.mk.injEq] at hs
  all_goals obtain ⟨rfl, rfl⟩ := hs
  all_goals first
    | (simp at hm; done)
    | (split at hm <;> simp at hm; done)
    | skip
  · next k hk _ =>
    simp only [timedMutex, Bool.and_eq_true, beq_iff_eq] at hk
    simp only [List.mem_singleton, Ev.threw.injEq] at hm
    rw [hm.2, hk.1]
  · next k hk _ =>
    simp only [timedMutex, beq_iff_eq] at hk
    simp only [List.mem_singleton, Ev.threw.injEq] at hm
    rw [hm.2, hk]

/-- In addition: of the operations of `timed_mutex` only the timed locks throw. -/
theorem C77_timed_mutex {c : Kind → Bool} {n : Nat} {tr : List (Ev One)} {s : St Bool One}
    (h : Exec (step (timedMutex c)) (init (timedMutex c) n) tr s) :
    Linearizable lockObj n (withoutThrown tr) ∧ (∀ ev ∈ withoutThrown tr, ev.isThrown = false) ∧
    (withoutThrown tr).filter Ev.isRet = tr.filter Ev.isRet ∧ ∀ t op, .threw t op ∈ tr → op = .acq .timed :=
  ⟨⟨_, Atomic.withoutThrown_exec (refines h)⟩, Atomic.withoutThrown_isThrown tr, Atomic.withoutThrown_isRet tr, threw_timed h⟩

/-- A wait that fails in the OS while another thread waits, and a post that cannot lock the mutex. -/
def faultDemo : List (Nat × Act One) :=
  [(0, .call (.acq .wait)), (0, .go), (0, .go), (1, .call (.acq .timed)), (1, .go), (1, .fail),
   (2, .call (.sig .post)), (2, .fail), (2, .call (.sig .post)), (2, .go), (2, .go), (2, .wake 0 false), (2, .go),
   (0, .go), (0, .go), (0, .go), (0, .go)]

example : ∃ tr s, Exec (step (autoEvent noRewait)) (init (autoEvent noRewait) 3) tr s ∧
    tr = [.called 0 (.acq .wait), .called 1 (.acq .timed), .threw 1 (.acq .timed), .called 2 (.sig .post), .threw 2 (.sig .post),
      .called 2 (.sig .post), .ret 2 (.sig .post) true, .ret 0 (.acq .wait) true] ∧
    withoutThrown tr = [.called 0 (.acq .wait), .called 2 (.sig .post), .ret 2 (.sig .post) true, .ret 0 (.acq .wait) true] :=
  ⟨_, _, exec_of_run (ls := faultDemo) rfl, rfl, by decide +kernel⟩

example : ∃ tr s, Exec (step (semaphore noRewait 0)) (init (semaphore noRewait 0) 3) tr s ∧ signalsCalled tr = 2 ∧ signalsDone tr = 1 ∧
    successes tr = 1 ∧ s.d = 0 :=
  ⟨_, _, exec_of_run (ls := faultDemo) rfl, rfl, rfl, rfl, rfl⟩

example : ∃ tr s, Exec (step (timedMutex noRewait)) (init (timedMutex noRewait) 2) tr s ∧
    tr = [.called 0 (.acq .wait), .ret 0 (.acq .wait) true, .called 1 (.acq .timed), .threw 1 (.acq .timed)] :=
  ⟨_, _, exec_of_run (ls := [(0, .call (.acq .wait)), (0, .go), (0, .go), (0, .go), (0, .go), (1, .call (.acq .timed)), (1, .go),
    (1, .fail)]) rfl, rfl⟩

end Verif.Monitor
