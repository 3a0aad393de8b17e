import Verif.Proof.MonitorObs

/-!
# C14-C16, C27, C28, C32 (emulation), C33: components built from a mutex and a condition variable

The contracts are stated against the atomic objects of `Verif.Spec.SyncObjects`; the model is `Verif.Model.Monitor`.
Everything holds for any number of threads, any scheduling, spurious wake-ups, timeouts and failures of the internal mutex and
condition variable at any point.  The parameter `c` of the components tells which waits may repeat their OS wait without a look at
the data: none (`noRewait`), those with time points of clocks other than the system clock (`userClock`), or all (`interrupts`, see
`Verif.Props.EmulationFaults`).  The statements about wake-ups are false with user clocks (`C27_refuted`, `C28_refuted`,
`C33_refuted`).
-/

namespace Verif.Monitor

open Verif.Atomic (Kind Op Ev Obj One SetReset Linearizable Observed UnlockedByOwner holds Owns prog mayFail
  eventObj flagObj counterObj lockObj successes signalsCalled signalsDone)

/-! ## C14: mutual exclusion of the emulated `timed_mutex` -/

theorem timedMutex_obj (c : Kind → Bool) : (timedMutex c).obj = lockObj := rfl

/-- Two threads never own the mutex: ownership lasts from the return of a successful `lock`/`try_lock`/timed lock to
the call of `unlock`. -/
theorem C14_mutual_exclusion {c : Kind → Bool} {n : Nat} {tr : List (Ev One)} {s : St Bool One}
    (h : Exec (step (timedMutex c)) (init (timedMutex c) n) tr s) (hu : UnlockedByOwner tr) {t u : Nat}
    (ht : holds tr t = true) (hu' : holds tr u = true) : t = u :=
  (Atomic.linv_exec (refines h) hu).unique t u (.inl ht) (.inl hu')

/-- Every history of calls and returns is one of an atomic lock. -/
theorem C14_refines_lock {c : Kind → Bool} {n : Nat} {tr : List (Ev One)} {s : St Bool One}
    (h : Exec (step (timedMutex c)) (init (timedMutex c) n) tr s) : Linearizable lockObj n tr := ⟨_, refines h⟩

/-- An execution with contention: thread 1 sleeps in a timed lock while 0 owns the mutex, is woken by `unlock`, owns it. -/
def lockDemo : List (Nat × Act One) :=
  [(0, .call (.acq .wait)), (0, .go), (0, .go), (0, .go), (0, .go),
   (1, .call (.acq .timed)), (1, .go), (1, .go),
   (0, .call (.sig .post)), (0, .go), (0, .go), (0, .wake 1 false), (0, .go),
   (1, .go), (1, .go), (1, .go), (1, .go)]

example : ∃ tr s, Exec (step (timedMutex noRewait)) (init (timedMutex noRewait) 2) tr s ∧
    tr = [.called 0 (.acq .wait), .ret 0 (.acq .wait) true, .called 1 (.acq .timed), .called 0 (.sig .post),
      .ret 0 (.sig .post) true, .ret 1 (.acq .timed) true] ∧ holds tr 1 = true :=
  ⟨_, _, exec_of_run (ls := lockDemo) rfl, rfl, rfl⟩

example : UnlockedByOwner [.called 0 (.acq .wait), .ret 0 (.acq .wait) true, .called 1 (.acq .timed),
    .called 0 (.sig .post), .ret 0 (.sig .post) true, .ret 1 (.acq .timed) true] := by
  intro pre t x post h
  match pre, h with
  | [_, _, _], h => simp only [List.cons_append, List.nil_append, List.cons.injEq, Ev.called.injEq] at h
                    obtain ⟨rfl, rfl, rfl, ⟨rfl, _⟩, _⟩ := h; rfl
  | [], h => simp at h
  | [_], h => simp at h
  | [_, _], h => simp at h
  | [_, _, _, _], h => simp at h
  | [_, _, _, _, _], h => simp at h
  | _ :: _ :: _ :: _ :: _ :: _ :: _, h => simp at h

/-! ## C15: no lost wake-up of the emulated `timed_mutex` -/

theorem timedMutex_tokens : Tokens (timedMutex noRewait) (fun locked => b2n (!locked)) where
  notReady := by intro d h; cases d <;> first | rfl | cases h
  take := by intro d h; cases d <;> first | (cases h; done) | decide
  nobody := by intro x d h; cases h
  one := by intro x d _; cases x; cases d <;> decide
  all := by intro x d h; cases h
  clock := fun _ => rfl

/-- If the mutex is free and a thread is blocked in it, some thread can take a step by itself, i.e. without a new call, a
timeout or a spurious wake-up. -/
theorem C15_no_lost_wakeup {n : Nat} {tr : List (Ev One)} {s : St Bool One}
    (h : Exec (step (timedMutex noRewait)) (init (timedMutex noRewait) n) tr s) (hfree : s.d = false) {t : Nat} {k : Kind}
    (ht : s.ths[t]? = some (.asleep k)) :
    ∃ (j : Nat) (a : Act One) (s' : St Bool One) (es : List (Ev One)),
      a.internal = true ∧ step (timedMutex noRewait) s (j, a) = some (s', es) := by
  apply can_move (inv_exec h)
  have := tok_exec timedMutex_tokens h (countP_pos_of_get (p := PC.isAsleep) ht rfl)
  rw [hfree] at this
  exact Nat.lt_of_lt_of_le Nat.one_pos this

/-- Such steps come to an end: from every reachable state at most `weight s.ths` of them are possible, and where no
further one is possible every thread is outside or blocked, and blocked only if the mutex is owned. -/
theorem C15_progress {n : Nat} {tr : List (Ev One)} {s : St Bool One}
    (h : Exec (step (timedMutex noRewait)) (init (timedMutex noRewait) n) tr s) :
    (∀ k s', Internal (timedMutex noRewait) s k s' → k ≤ weight s.ths) ∧
    (∃ k s', Internal (timedMutex noRewait) s k s' ∧ Quiescent (timedMutex noRewait) s') ∧
    (∀ k s', Internal (timedMutex noRewait) s k s' → Quiescent (timedMutex noRewait) s' →
      ∀ (t : Nat) (pc : PC One), s'.ths[t]? = some pc → pc = .idle ∨ (∃ k, pc = .asleep k) ∧ s'.d = true) := by
  refine ⟨fun k s' hi => by have := internal_bounded hi; omega, internal_ends s, ?_⟩
  intro k s' hi q t pc ht
  obtain ⟨tr', h'⟩ := internal_exec h hi
  rcases quiescent_pcs (inv_exec h') q ht with h1 | ⟨k', h1⟩
  · exact .inl h1
  · subst h1
    refine .inr ⟨⟨k', rfl⟩, ?_⟩
    have := tokens_quiescent timedMutex_tokens (by intro d hd; cases d <;> first | decide | cases hd) h' q ht
    simpa [timedMutex] using this

/-- The hypotheses of `C15_no_lost_wakeup` are met after `unlock` has cleared the flag and before it notified. -/
example : ∃ tr s, Exec (step (timedMutex noRewait)) (init (timedMutex noRewait) 2) tr s ∧ s.d = false ∧ s.ths[1]? = some (.asleep .timed) :=
  ⟨_, _, exec_of_run (ls := lockDemo.take 11) rfl, rfl, rfl⟩

/-! ## C16: a timed lock fails only while the mutex is owned -/

/-- Behind every timed lock that returned `false` there is an instant during the call (after `tr₁`), after the timeout
was reported, at which `m_is_locked` was set and the mutex was owned by some thread — by another one, unless the caller
itself had locked it before. -/
theorem C16_timed_failure {c : Kind → Bool} {n : Nat} {pre post : List (Ev One)} {s : St Bool One} {t : Nat}
    (h : Exec (step (timedMutex c)) (init (timedMutex c) n) (pre ++ .ret t (.acq .timed) false :: post) s)
    (hu : UnlockedByOwner (pre ++ .ret t (.acq .timed) false :: post)) :
    ∃ tr₁ tr₂ s₁, pre = tr₁ ++ tr₂ ∧ Exec (step (timedMutex c)) (init (timedMutex c) n) tr₁ s₁ ∧ s₁.d = true ∧
      prog tr₁ t = some (.acq .timed, true) ∧ (∀ ev ∈ tr₂, ev.silentFor t = true) ∧
      ∃ u, Owns tr₁ s₁.abs u ∧ (holds tr₁ t = false → u ≠ t) := by
  obtain ⟨tr₁, tr₂, a, e, hsplit, ⟨s₁, hex, rfl⟩, hr, hpend, hp, hf, hq⟩ := observed h
  have he : e = true := hf rfl
  subst he
  have hd : s₁.d = true := by simpa [timedMutex, Mon.obj, St.abs] using hr
  have hu₁ : UnlockedByOwner tr₁ := by
    rw [hsplit, List.append_assoc] at hu
    exact Atomic.unlocked_prefix hu
  obtain ⟨u, hown⟩ := (Atomic.linv_exec (refines hex) hu₁).owner hd
  refine ⟨tr₁, tr₂, s₁, hsplit, hex, hd, hp, hq, u, hown, ?_⟩
  rintro hh rfl
  rcases hown with h' | ⟨k, h'⟩ | ⟨x, e, h'⟩
  · rw [hh] at h'; cases h'
  · rw [hpend] at h'; cases h'
  · rw [hpend] at h'; cases h'

/-- A plain `try_lock` fails only if it saw the mutex owned. -/
theorem C16_try_failure {c : Kind → Bool} {n : Nat} {pre post : List (Ev One)} {s : St Bool One} {t : Nat}
    (h : Exec (step (timedMutex c)) (init (timedMutex c) n) (pre ++ .ret t (.acq .tryWait) false :: post) s) :
    ∃ tr₁ tr₂ s₁, pre = tr₁ ++ tr₂ ∧ Exec (step (timedMutex c)) (init (timedMutex c) n) tr₁ s₁ ∧ s₁.d = true ∧
      (∃ e, prog tr₁ t = some (.acq .tryWait, e)) ∧ (∀ ev ∈ tr₂, ev.silentFor t = true) := by
  obtain ⟨tr₁, tr₂, a, e, hsplit, ⟨s₁, hex, rfl⟩, hr, hpend, hp, hf, hq⟩ := observed h
  exact ⟨tr₁, tr₂, s₁, hsplit, hex, by simpa [timedMutex, Mon.obj, St.abs] using hr, ⟨e, hp⟩, hq⟩

/-- A timed lock that times out while thread 0 owns the mutex. -/
def timeoutDemo : List (Nat × Act One) :=
  [(0, .call (.acq .wait)), (0, .go), (0, .go), (0, .go), (0, .go),
   (1, .call (.acq .timed)), (1, .go), (1, .go), (1, .timeout), (1, .go), (1, .go), (1, .go)]

example : ∃ tr s, Exec (step (timedMutex noRewait)) (init (timedMutex noRewait) 2) tr s ∧
    tr = [.called 0 (.acq .wait), .ret 0 (.acq .wait) true, .called 1 (.acq .timed), .timedOut 1] ++
      .ret 1 (.acq .timed) false :: [] :=
  ⟨_, _, exec_of_run (ls := timeoutDemo) rfl, rfl⟩

/-- A timed lock whose timeout is reported although the mutex was released in the meantime succeeds. -/
example : (runFrom (step (timedMutex noRewait)) (init (timedMutex noRewait) 2)
    (timeoutDemo.take 9 ++ [(0, .call (.sig .post)), (0, .go), (0, .go), (0, .go), (0, .go), (1, .go), (1, .go), (1, .go), (1, .go)])).map
      (fun r => r.2.getLast?) = some (some (.ret 1 (.acq .timed) true)) := by decide +kernel

/-! ## C27: the emulated `auto_reset_event` is an atomic flag -/

theorem autoEvent_obj (c : Kind → Bool) : (autoEvent c).obj = eventObj := rfl

/-- Every history of calls and returns is one of the atomic event: each successful wait takes the flag set by a post at
one instant, a failed one leaves it unchanged. -/
theorem C27_refines_event {c : Kind → Bool} {n : Nat} {tr : List (Ev One)} {s : St Bool One}
    (h : Exec (step (autoEvent c)) (init (autoEvent c) n) tr s) : Linearizable eventObj n tr := ⟨_, refines h⟩

theorem autoEvent_tokens : Tokens (autoEvent noRewait) b2n where
  notReady := by intro d h; cases d <;> first | rfl | cases h
  take := by intro d h; cases d <;> first | (cases h; done) | decide
  nobody := by intro x d h; cases d <;> first | (cases h; done) | (cases x; decide)
  one := by intro x d _; cases x; cases d <;> decide
  all := by intro x d h; cases d <;> cases h
  clock := fun _ => rfl

/-- While the flag is set nobody sleeps unless a wake-up is on its way: some thread can take a step by itself. -/
theorem C27_no_lost_wakeup_partial {n : Nat} {tr : List (Ev One)} {s : St Bool One}
    (h : Exec (step (autoEvent noRewait)) (init (autoEvent noRewait) n) tr s) (hset : s.d = true) {t : Nat} {k : Kind}
    (ht : s.ths[t]? = some (.asleep k)) :
    ∃ (j : Nat) (a : Act One) (s' : St Bool One) (es : List (Ev One)),
      a.internal = true ∧ step (autoEvent noRewait) s (j, a) = some (s', es) := by
  apply can_move (inv_exec h)
  have := tok_exec autoEvent_tokens h (countP_pos_of_get (p := PC.isAsleep) ht rfl)
  rw [hset] at this
  exact Nat.lt_of_lt_of_le Nat.one_pos this

/-- Those steps come to an end, and then threads are blocked only if the flag is clear. -/
theorem C27_progress_partial {n : Nat} {tr : List (Ev One)} {s : St Bool One}
    (h : Exec (step (autoEvent noRewait)) (init (autoEvent noRewait) n) tr s) :
    (∀ k s', Internal (autoEvent noRewait) s k s' → k ≤ weight s.ths) ∧
    (∃ k s', Internal (autoEvent noRewait) s k s' ∧ Quiescent (autoEvent noRewait) s') ∧
    (∀ k s', Internal (autoEvent noRewait) s k s' → Quiescent (autoEvent noRewait) s' →
      ∀ (t : Nat) (pc : PC One), s'.ths[t]? = some pc → pc = .idle ∨ (∃ k, pc = .asleep k) ∧ s'.d = false) := by
  refine ⟨fun k s' hi => by have := internal_bounded hi; omega, internal_ends s, ?_⟩
  intro k s' hi q t pc ht
  obtain ⟨tr', h'⟩ := internal_exec h hi
  rcases quiescent_pcs (inv_exec h') q ht with h1 | ⟨k', h1⟩
  · exact .inl h1
  · subst h1
    exact .inr ⟨⟨k', rfl⟩, tokens_quiescent autoEvent_tokens (by intro d hd; cases d <;> first | decide | cases hd) h' q ht⟩

/-- Thread 0 is in a timed wait on a clock that runs behind the system clock.  Its OS wait times out, thread 1 posts and finds
nobody to notify, then thread 0 finds that by its clock it is too early and waits again, without a look at the flag. -/
def lateClock {S : Type} (x : S) : List (Nat × Act S) :=
  [(0, .call (.acq .timed)), (0, .go), (0, .go), (0, .spurious), (1, .call (.sig x)), (1, .go), (1, .go), (1, .go),
   (1, .go), (0, .early), (0, .go)]

/-- With such clocks a thread may sleep although the flag is set, the post has returned and no thread can take a step. -/
theorem C27_refuted : ∃ tr s, Exec (step (autoEvent userClock)) (init (autoEvent userClock) 2) tr s ∧
    tr = [.called 0 (.acq .timed), .called 1 (.sig .post), .ret 1 (.sig .post) true] ∧
    s.d = true ∧ s.ths = [.asleep .timed, .idle] ∧ Quiescent (autoEvent userClock) s :=
  ⟨_, _, exec_of_run (ls := lateClock .post) rfl, rfl, rfl, rfl, by
    intro t a ha
    match t, a, ha with
    | 0, .go, _ | 0, .wake _ _, _ | 1, .go, _ | 1, .wake _ _, _ => rfl
    | t + 2, .go, _ | t + 2, .wake _ _, _ => rfl⟩

/-- Two sleepers, two posts: both get out. -/
def eventDemo : List (Nat × Act One) :=
  [(0, .call (.acq .wait)), (0, .go), (0, .go), (1, .call (.acq .timed)), (1, .go), (1, .go),
   (2, .call (.sig .post)), (2, .go), (2, .go), (2, .wake 1 false), (2, .go), (1, .go), (1, .go), (1, .go), (1, .go),
   (2, .call (.sig .post)), (2, .go), (2, .go), (2, .wake 0 false), (2, .go), (0, .go), (0, .go), (0, .go), (0, .go)]

example : ∃ tr s, Exec (step (autoEvent noRewait)) (init (autoEvent noRewait) 3) tr s ∧ successes tr = 2 ∧ s.d = false :=
  ⟨_, _, exec_of_run (ls := eventDemo) rfl, rfl, rfl⟩

example : ∃ tr s, Exec (step (autoEvent noRewait)) (init (autoEvent noRewait) 3) tr s ∧ s.d = true ∧ s.ths[0]? = some (.asleep .wait) :=
  ⟨_, _, exec_of_run (ls := eventDemo.take 9) rfl, rfl, rfl⟩

/-- The specification is not trivial: two successful waits after one post are not a history of the atomic event. -/
example : runFrom (Atomic.step eventObj) (Atomic.init eventObj 1)
    [(0, .call (.sig .post)), (0, .lin), (0, .ret), (0, .call (.acq .wait)), (0, .lin), (0, .ret),
     (0, .call (.acq .wait)), (0, .lin), (0, .ret)] = none := by decide +kernel

/-! ## C28: the emulated `manual_reset_event` -/

theorem manualEvent_obj (c : Kind → Bool) : (manualEvent c).obj = flagObj := by
  simp only [manualEvent, flagObj, Mon.obj, Obj.mk.injEq, true_and]
  refine ⟨rfl, rfl, ?_⟩
  funext x d
  cases x <;> rfl

theorem C28_refines_flag {c : Kind → Bool} {n : Nat} {tr : List (Ev SetReset)} {s : St Bool SetReset}
    (h : Exec (step (manualEvent c)) (init (manualEvent c) n) tr s) : Linearizable flagObj n tr := by
  have := refines h
  rw [manualEvent_obj] at this
  exact ⟨_, this⟩

/-- Every wait that returned success saw the flag set at an instant during its call; every failed one saw it clear. -/
theorem C28_observed {c : Kind → Bool} {n : Nat} {pre post : List (Ev SetReset)} {s : St Bool SetReset} {t : Nat} {k : Kind} {b : Bool}
    (h : Exec (step (manualEvent c)) (init (manualEvent c) n) (pre ++ .ret t (.acq k) b :: post) s) :
    ∃ tr₁ tr₂ s₁ e, pre = tr₁ ++ tr₂ ∧ Exec (step (manualEvent c)) (init (manualEvent c) n) tr₁ s₁ ∧ s₁.d = b ∧
      prog tr₁ t = some (.acq k, e) ∧ (b = false → mayFail k e = true) ∧ (∀ ev ∈ tr₂, ev.silentFor t = true) := by
  obtain ⟨tr₁, tr₂, a, e, hsplit, ⟨s₁, hex, rfl⟩, hr, _, hp, hf, hq⟩ := observed h
  exact ⟨tr₁, tr₂, s₁, e, hsplit, hex, hr, hp, hf, hq⟩

theorem manualEvent_broadcast : Broadcast (manualEvent noRewait) where
  take := by intro d h; exact h
  nobody := by intro x d h; cases x <;> cases d <;> first | (cases h; done) | (intro; first | rfl | contradiction)
  one := by intro x d h; cases x <;> cases d <;> cases h
  clock := fun _ => rfl

theorem C28_no_lost_wakeup_partial {n : Nat} {tr : List (Ev SetReset)} {s : St Bool SetReset}
    (h : Exec (step (manualEvent noRewait)) (init (manualEvent noRewait) n) tr s) (hset : s.d = true) {t : Nat} {k : Kind}
    (ht : s.ths[t]? = some (.asleep k)) :
    ∃ (j : Nat) (x : SetReset), s.ths[j]? = some (.notifying x true) ∧
      step (manualEvent noRewait) s (j, .go) = some ({ s with ths := (s.ths.set j (.leave (.sig x) true)).map PC.wakeUp }, []) ∧
      ((s.ths.set j (.leave (.sig x) true)).map PC.wakeUp)[t]? = some (.woken k false) := by
  have hb := bro_exec manualEvent_broadcast h
  obtain ⟨j, pc, hj, hp⟩ := exists_of_countP_pos (hb.1 hset (countP_pos_of_get (p := PC.isAsleep) ht rfl))
  cases pc with
  | notifying x all =>
    cases all
    · have := hb.2 j _ hj; cases this
    · refine ⟨j, x, hj, by simp [step, hj], ?_⟩
      have hne : j ≠ t := by rintro rfl; rw [ht] at hj; cases hj
      rw [List.getElem?_map, get_set_ne hne, ht]
      rfl
  | _ => cases hp

theorem C28_progress_partial {n : Nat} {tr : List (Ev SetReset)} {s : St Bool SetReset}
    (h : Exec (step (manualEvent noRewait)) (init (manualEvent noRewait) n) tr s) :
    (∀ k s', Internal (manualEvent noRewait) s k s' → k ≤ weight s.ths) ∧
    (∃ k s', Internal (manualEvent noRewait) s k s' ∧ Quiescent (manualEvent noRewait) s') ∧
    (∀ k s', Internal (manualEvent noRewait) s k s' → Quiescent (manualEvent noRewait) s' →
      ∀ (t : Nat) (pc : PC SetReset), s'.ths[t]? = some pc → pc = .idle ∨ (∃ k, pc = .asleep k) ∧ s'.d = false) := by
  refine ⟨fun k s' hi => by have := internal_bounded hi; omega, internal_ends s, ?_⟩
  intro k s' hi q t pc ht
  obtain ⟨tr', h'⟩ := internal_exec h hi
  rcases quiescent_pcs (inv_exec h') q ht with h1 | ⟨k', h1⟩
  · exact .inl h1
  · subst h1
    exact .inr ⟨⟨k', rfl⟩, broadcast_quiescent manualEvent_broadcast h' q ht⟩

/-- See `lateClock`. -/
theorem C28_refuted : ∃ tr s, Exec (step (manualEvent userClock)) (init (manualEvent userClock) 2) tr s ∧
    tr = [.called 0 (.acq .timed), .called 1 (.sig .set), .ret 1 (.sig .set) true] ∧
    s.d = true ∧ s.ths = [.asleep .timed, .idle] ∧ Quiescent (manualEvent userClock) s :=
  ⟨_, _, exec_of_run (ls := lateClock .set) rfl, rfl, rfl, rfl, by
    intro t a ha
    match t, a, ha with
    | 0, .go, _ | 0, .wake _ _, _ | 1, .go, _ | 1, .wake _ _, _ => rfl
    | t + 2, .go, _ | t + 2, .wake _ _, _ => rfl⟩

/-- Two sleepers, one `set`. -/
def manualDemo : List (Nat × Act SetReset) :=
  [(0, .call (.acq .wait)), (0, .go), (0, .go), (1, .call (.acq .timed)), (1, .go), (1, .go),
   (2, .call (.sig .set)), (2, .go), (2, .go), (2, .go), (2, .go), (1, .go), (1, .go), (1, .go), (1, .go),
   (0, .go), (0, .go), (0, .go), (0, .go), (2, .call (.sig .reset)), (2, .go), (2, .go), (2, .go),
   (1, .call (.acq .tryWait)), (1, .go), (1, .go), (1, .go)]

example : ∃ tr s, Exec (step (manualEvent noRewait)) (init (manualEvent noRewait) 3) tr s ∧ successes tr = 2 ∧ s.d = false ∧
    tr.getLast? = some (.ret 1 (.acq .tryWait) false) :=
  ⟨_, _, exec_of_run (ls := manualDemo) rfl, rfl, rfl, rfl⟩

example : ∃ tr s, Exec (step (manualEvent noRewait)) (init (manualEvent noRewait) 3) tr s ∧ s.d = true ∧ s.ths[0]? = some (.asleep .wait) :=
  ⟨_, _, exec_of_run (ls := manualDemo.take 9) rfl, rfl, rfl⟩

/-! ## C32 for the emulated semaphore: permits are conserved -/

/-- As long as the permits fit into the `unsigned int`, every history is one of a counter of permits. -/
theorem C32_emulation_refines_counter_partial {i : UInt32} {c : Kind → Bool} {n : Nat} {tr : List (Ev One)} {s : St UInt32 One}
    (h : Exec (step (semaphore c i)) (init (semaphore c i) n) tr s) (hb : i.toNat + signalsCalled tr < 2 ^ 32) :
    Linearizable (counterObj i.toNat) n tr :=
  ⟨_, counter_of_uint32 (refines h) hb⟩

/-- Permits are conserved: between operations, initial count + posts = successful waits + available permits; failing
waits do not appear. -/
theorem C32_emulation_conservation_partial {i : UInt32} {c : Kind → Bool} {n : Nat} {tr : List (Ev One)} {s : St UInt32 One}
    (h : Exec (step (semaphore c i)) (init (semaphore c i) n) tr s) (hb : i.toNat + signalsCalled tr < 2 ^ 32)
    (hidle : ∀ (t : Nat) pc, s.ths[t]? = some pc → pc = .idle) :
    i.toNat + signalsDone tr = s.d.toNat + successes tr := by
  have hc := Atomic.cinv_exec (counter_of_uint32 (refines h) hb)
  have hz : ∀ (p : Atomic.Status One → Bool), p .idle = false → s.abs.ths.countP p = 0 := by
    intro p hp
    apply countP_eq_zero_of_forall
    intro t st hst
    simp only [St.abs, List.getElem?_map, Option.map_eq_some_iff] at hst
    obtain ⟨pc, hpc, rfl⟩ := hst
    rw [hidle t pc hpc]
    exact hp
  obtain ⟨h1, h2⟩ := hc
  simp only [hz _ (rfl : Atomic.Status.doneAcq .idle = false), hz _ (rfl : Atomic.Status.pendingSig .idle = false),
    hz _ (rfl : Atomic.Status.doneSig .idle = false)] at h1 h2
  have : s.abs.d = s.d := rfl
  rw [this] at h1
  omega

/-- At any time: no more waits have succeeded than there were permits. -/
theorem C32_emulation_never_negative_partial {i : UInt32} {c : Kind → Bool} {n : Nat} {tr : List (Ev One)} {s : St UInt32 One}
    (h : Exec (step (semaphore c i)) (init (semaphore c i) n) tr s) (hb : i.toNat + signalsCalled tr < 2 ^ 32) :
    successes tr + s.d.toNat ≤ i.toNat + signalsCalled tr := by
  have hc := (Atomic.cinv_exec (counter_of_uint32 (refines h) hb)).1
  have : s.abs.d = s.d := rfl
  rw [this] at hc
  simp only at hc
  omega

/-- `post` increments without a check: at the largest count it succeeds and leaves no permit at all. -/
theorem C32_emulation_refuted : ∃ tr s, Exec (step (semaphore noRewait 0xFFFFFFFF)) (init (semaphore noRewait 0xFFFFFFFF) 1) tr s ∧
    tr = [.called 0 (.sig .post), .ret 0 (.sig .post) true] ∧ s.ths = [.idle] ∧ s.d = 0 :=
  ⟨_, _, exec_of_run (ls := [(0, .call (.sig .post)), (0, .go), (0, .go), (0, .go), (0, .go)]) rfl, rfl, rfl, rfl⟩

/-! ## C33: no lost wake-up of the emulated semaphore -/

theorem semaphore_tokens (i : UInt32) : Tokens (semaphore noRewait i) UInt32.toNat where
  notReady := by
    intro d h
    have : d = 0 := by simpa [semaphore] using h
    rw [this]; rfl
  take := by
    intro d h
    have h0 : d ≠ 0 := by simpa [semaphore] using h
    have h1 : d.toNat ≠ 0 := fun h => h0 (UInt32.toNat_inj.mp (by simpa using h))
    show (d - 1).toNat + 1 ≤ d.toNat
    rw [UInt32.toNat_sub_of_le _ _ (by rw [UInt32.le_iff_toNat_le]; simp only [UInt32.toNat_one]; omega)]
    simp only [UInt32.toNat_one]
    omega
  nobody := by intro x d h; cases h
  one := by
    intro x d _
    show (d + 1).toNat ≤ d.toNat + 1
    rw [UInt32.toNat_add]
    simp only [UInt32.toNat_one]
    exact Nat.mod_le _ _
  all := by intro x d h; cases h
  clock := fun _ => rfl

/-- While threads are blocked, there are at least as many threads on their way to a permit as there are permits; in
particular, if there is a permit, some thread can take a step by itself. -/
theorem C33_no_lost_wakeup_partial {i : UInt32} {n : Nat} {tr : List (Ev One)} {s : St UInt32 One}
    (h : Exec (step (semaphore noRewait i)) (init (semaphore noRewait i) n) tr s) {t : Nat} {k : Kind}
    (ht : s.ths[t]? = some (.asleep k)) :
    s.d.toNat ≤ s.ths.countP PC.active ∧
    (s.d ≠ 0 → ∃ (j : Nat) (a : Act One) (s' : St UInt32 One) (es : List (Ev One)),
      a.internal = true ∧ step (semaphore noRewait i) s (j, a) = some (s', es)) := by
  have hle := tok_exec (semaphore_tokens i) h (countP_pos_of_get (p := PC.isAsleep) ht rfl)
  refine ⟨hle, fun h0 => can_move (inv_exec h) ?_⟩
  have h1 : s.d.toNat ≠ 0 := fun h => h0 (UInt32.toNat_inj.mp (by simpa using h))
  omega

theorem C33_progress_partial {i : UInt32} {n : Nat} {tr : List (Ev One)} {s : St UInt32 One}
    (h : Exec (step (semaphore noRewait i)) (init (semaphore noRewait i) n) tr s) :
    (∀ k s', Internal (semaphore noRewait i) s k s' → k ≤ weight s.ths) ∧
    (∃ k s', Internal (semaphore noRewait i) s k s' ∧ Quiescent (semaphore noRewait i) s') ∧
    (∀ k s', Internal (semaphore noRewait i) s k s' → Quiescent (semaphore noRewait i) s' →
      ∀ (t : Nat) (pc : PC One), s'.ths[t]? = some pc → pc = .idle ∨ (∃ k, pc = .asleep k) ∧ s'.d = 0) := by
  refine ⟨fun k s' hi => by have := internal_bounded hi; omega, internal_ends s, ?_⟩
  intro k s' hi q t pc ht
  obtain ⟨tr', h'⟩ := internal_exec h hi
  rcases quiescent_pcs (inv_exec h') q ht with h1 | ⟨k', h1⟩
  · exact .inl h1
  · subst h1
    refine .inr ⟨⟨k', rfl⟩, ?_⟩
    have := tokens_quiescent (semaphore_tokens i) (by
      intro d hd
      have h0 : d ≠ 0 := by simpa [semaphore] using hd
      have h1 : d.toNat ≠ 0 := fun h => h0 (UInt32.toNat_inj.mp (by simpa using h))
      omega) h' q ht
    simpa [semaphore] using this

/-- With a clock that runs behind the system clock: the notification of the only post goes to thread 1, whose OS wait reports a
timeout; by its clock it is too early and it waits again.  Thread 0 sleeps in `wait()` although there is a permit. -/
theorem C33_refuted : ∃ tr s, Exec (step (semaphore userClock 0)) (init (semaphore userClock 0) 3) tr s ∧
    tr = [.called 0 (.acq .wait), .called 1 (.acq .timed), .called 2 (.sig .post), .ret 2 (.sig .post) true] ∧
    s.d = 1 ∧ s.ths = [.asleep .wait, .asleep .timed, .idle] ∧ Quiescent (semaphore userClock 0) s :=
  ⟨_, _, exec_of_run (ls := [(0, .call (.acq .wait)), (0, .go), (0, .go), (1, .call (.acq .timed)), (1, .go), (1, .go),
    (2, .call (.sig .post)), (2, .go), (2, .go), (2, .wake 1 false), (2, .go), (1, .early), (1, .go)]) rfl, rfl, rfl, rfl, by
    intro t a ha
    match t, a, ha with
    | 0, .go, _ | 0, .wake _ _, _ | 1, .go, _ | 1, .wake _ _, _ | 2, .go, _ | 2, .wake _ _, _ => rfl
    | t + 3, .go, _ | t + 3, .wake _ _, _ => rfl⟩

/-- Two sleepers, two posts in a row, one of the sleepers woken twice is impossible: both are woken. -/
def semDemo : List (Nat × Act One) :=
  [(0, .call (.acq .wait)), (0, .go), (0, .go), (1, .call (.acq .wait)), (1, .go), (1, .go),
   (2, .call (.sig .post)), (2, .go), (2, .go), (2, .wake 0 false), (2, .go),
   (2, .call (.sig .post)), (2, .go), (2, .go), (2, .wake 1 false), (2, .go),
   (1, .go), (1, .go), (1, .go), (1, .go), (0, .go), (0, .go), (0, .go), (0, .go)]

example : ∃ tr s, Exec (step (semaphore noRewait 0)) (init (semaphore noRewait 0) 3) tr s ∧ successes tr = 2 ∧ signalsDone tr = 2 ∧ s.d = 0 ∧
    s.ths = [.idle, .idle, .idle] :=
  ⟨_, _, exec_of_run (ls := semDemo) rfl, rfl, rfl, rfl, rfl⟩

example : ∃ tr s, Exec (step (semaphore noRewait 0)) (init (semaphore noRewait 0) 3) tr s ∧ s.d ≠ 0 ∧ s.ths[1]? = some (.asleep .wait) :=
  ⟨_, _, exec_of_run (ls := semDemo.take 9) rfl, by decide, rfl⟩

end Verif.Monitor
