import Verif.Proof.TssOrder

/-! # C62–C65: what happens at thread exit

Executions start with any number `n` of threads; callbacks and cleanup functions do whatever they like. -/

namespace Verif.Tss

/-! ## C62 -/

/-- In every execution, on every configuration, each thread runs its callbacks in the required order: each callback run is the next one of the batch
being run, and all registered since then wait until it is finished, the most recent first.  (`callbacks` is none for any other
order, for callbacks that were not registered, and for callbacks run twice.) -/
theorem C62_order {cfg n tr s} (h : Exec (step cfg) (init n) tr s) {t : Nat} {th : Thread} (ht : s.threads[t]? = some th) :
    ∃ c, callbacks t tr = some c := by
  have := cbR_exec h t th ht
  cases hc : callbacks t tr with
  | none => rw [hc] at this; cases this
  | some c => exact ⟨c, rfl⟩

/-- Nothing is run more often than it was registered. -/
theorem C62_at_most_once {cfg n tr s} (h : Exec (step cfg) (init n) tr s) {t : Nat} {th : Thread} (ht : s.threads[t]? = some th) (id : Nat) :
    tr.countP (isRan t id) ≤ tr.countP (isRegistered t id) := by
  obtain ⟨c, hc⟩ := C62_order h ht
  have := callbacks_count id hc
  omega

theorem count_of_empty {t : Nat} {tr} (h : callbacks t tr = some ⟨[], []⟩) (id : Nat) : tr.countP (isRan t id) = tr.countP (isRegistered t id) := by
  have := callbacks_count id h
  simpa using this.symm

theorem slot_none_of_bound {rounds n tr s} (h : Exec (step (.pthreadKey rounds)) (init n) tr s) {t : Nat} {th : Thread} (ht : s.threads[t]? = some th)
    (hd : th.ph = .done) (hb : busy t tr < rounds) : th.slot = none := by
  have := (busyR_exec h t th ht).cnt
  unfold bound at this
  rw [hd] at this
  dsimp only at this
  cases hs : th.slot with
  | none => rfl
  | some c =>
    have := this (by rw [hs]; simp)
    unfold busy at hb
    omega

/-- With a pthread key, when the thread is gone every callback has been run as often as it was registered, provided that the callbacks and cleanup
functions called at its exit have registered fewer values, callbacks and notifications than the number of times the system calls the
destructor of the key (at least 4).  What is missing: `C62_refuted_posix`. -/
theorem C62_exactly_once_posix_partial {rounds n tr s} (h : Exec (step (.pthreadKey rounds)) (init n) tr s) {t : Nat} {th : Thread}
    (ht : s.threads[t]? = some th) (hd : th.ph = .done) (hb : busy t tr < rounds) (id : Nat) :
    tr.countP (isRan t id) = tr.countP (isRegistered t id) := by
  have hs := slot_none_of_bound h ht hd hb
  have hr := cbR_exec h t th ht
  refine count_of_empty ?_ id
  cases hc : callbacks t tr with
  | none => rw [hc] at hr; cases hr
  | some c =>
    rw [hc] at hr
    cases hr with
    | normal a b =>
      obtain ⟨batch, later⟩ := c
      rw [hd] at a
      unfold slotAtExit at b
      rw [hs] at b
      dsimp only [pendingOf] at a b
      rw [a, b]; rfl
    | fresh a b => rw [hd] at b; cases b
    | over a => cases a

/-- On Windows, when the thread is gone every callback has been run as often as it was registered, provided that no cleanup function called at its
exit has registered any (C64). -/
theorem C62_exactly_once_windows_partial {n tr s} (h : Exec (step .windows) (init n) tr s) {t : Nat} {th : Thread}
    (ht : s.threads[t]? = some th) (hd : th.ph = .done) (hl : late t tr = false) (id : Nat) :
    tr.countP (isRan t id) = tr.countP (isRegistered t id) :=
  count_of_empty ((lateR_exec h t th ht).left hl (by rw [hd]; rfl)) id

/-- With a pthread key, callbacks registered by callbacks are run in the next call of the destructor of the key: the fifth generation is
lost if there are four calls. -/
theorem C62_refuted_posix : ∃ tr s, Exec (step (.pthreadKey 4)) (init 1) tr s ∧ .ended 0 ∈ tr ∧
    tr.countP (isRegistered 0 4) = 1 ∧ tr.countP (isRan 0 4) = 0 := by
  let round (id : Nat) : List (Nat × Op) := [(0, .exitStep), (0, .exitStep), (0, .atThreadExit id), (0, .exitStep), (0, .exitStep), (0, .exitStep)]
  exact ⟨_, _, exec_of_run (ls := [(0, .atThreadExit 0), (0, .exit)] ++ round 1 ++ round 2 ++ round 3 ++ round 4 ++ [(0, .exitStep)]) rfl,
    by decide, by decide, by decide⟩

/-- Two callbacks registered by the thread and two by the second of them. -/
def demoCallbacks : List (Nat × Op) :=
  [(0, .atThreadExit 1), (0, .atThreadExit 2), (0, .exit), (0, .exitStep), (0, .exitStep), (0, .atThreadExit 3), (0, .atThreadExit 4)]

/-- They run in the order 2, 1, 4, 3, on Windows … -/
example : ∃ tr s th, Exec (step .windows) (init 1) tr s ∧ s.threads[0]? = some th ∧ th.ph = .done ∧ late 0 tr = false ∧
    tr.filter (fun e => match e with | .ran _ _ => true | _ => false) = [.ran 0 2, .ran 0 1, .ran 0 4, .ran 0 3] :=
  ⟨_, _, _, exec_of_run (ls := demoCallbacks ++ List.replicate 7 (0, .exitStep)) rfl, rfl, rfl, by decide, by decide⟩

/-- … and elsewhere. -/
example : ∃ tr s th, Exec (step (.pthreadKey 4)) (init 1) tr s ∧ s.threads[0]? = some th ∧ th.ph = .done ∧ busy 0 tr = 2 ∧
    tr.filter (fun e => match e with | .ran _ _ => true | _ => false) = [.ran 0 2, .ran 0 1, .ran 0 4, .ran 0 3] :=
  ⟨_, _, _, exec_of_run (ls := demoCallbacks ++ List.replicate 11 (0, .exitStep)) rfl, rfl, rfl, by decide, by decide⟩

/-! ## C63 -/

/-- On Windows all callbacks run before all cleanups of values, and these before all notifications. -/
theorem C63_order_windows {n tr s} (h : Exec (step .windows) (init n) tr s) {t : Nat} {th : Thread} (ht : s.threads[t]? = some th) : Ordered t tr :=
  ((ordR_exec h t th ht).ord (.inl rfl)).1

/-- Elsewhere the same holds for threads whose callbacks and cleanup functions register nothing more.  What is missing: `C63_refuted_posix`. -/
theorem C63_order_posix_partial {cfg n tr s} (h : Exec (step cfg) (init n) tr s) {t : Nat} {th : Thread} (ht : s.threads[t]? = some th)
    (hb : busy t tr = 0) : Ordered t tr :=
  ((ordR_exec h t th ht).ord (.inr hb)).1

/-- Notifications are made in the order of registration, each after its mutex has been unlocked, and none twice. -/
theorem C63_notifications {cfg n tr s} (h : Exec (step cfg) (init n) tr s) {t : Nat} {th : Thread} (ht : s.threads[t]? = some th) :
    ∃ q, notifications t tr = some ⟨q, false⟩ := ⟨_, ntR_exec h t th ht⟩

/-- On Windows all notifications have been made when the thread is gone. -/
theorem C63_all_notified_windows {n tr s} (h : Exec (step .windows) (init n) tr s) {t : Nat} {th : Thread} (ht : s.threads[t]? = some th)
    (hd : th.ph = .done) : notifications t tr = some ⟨[], false⟩ := by
  rw [ntR_exec h t th ht]
  have h1 := goneW_exec h t th ht rfl hd
  have h2 := ((inv_exec h).1.thr t th ht).noDying (.inl rfl)
  unfold queueOf
  rw [hd, h1, h2]; rfl

/-- The same with a pthread key, under the condition of C62. -/
theorem C63_all_notified_posix_partial {rounds n tr s} (h : Exec (step (.pthreadKey rounds)) (init n) tr s) {t : Nat} {th : Thread}
    (ht : s.threads[t]? = some th) (hd : th.ph = .done) (hb : busy t tr < rounds) : notifications t tr = some ⟨[], false⟩ := by
  rw [ntR_exec h t th ht]
  have h1 := slot_none_of_bound h ht hd hb
  have h2 := ((inv_exec h).1.thr t th ht).noDying (.inr (by rw [hd]; rfl))
  unfold queueOf
  rw [hd, h1, h2]; rfl

/-- With a pthread key a callback registered by a callback runs after values have been cleaned up and after notifications have been made. -/
theorem C63_refuted_posix : ∃ tr s, Exec (step (.pthreadKey 4)) (init 1) tr s ∧ ¬ Ordered 0 tr ∧
    tr.filterMap (rank 0) = [1, 2, 3, 3, 1] :=
  ⟨_, _, exec_of_run (ls := [(0, .create true true), (0, .reset 0 (some 5)), (0, .atThreadExit 1), (0, .notifyAtExit (7, 8)), (0, .exit), (0, .exitStep), (0, .exitStep),
    (0, .atThreadExit 2)] ++ List.replicate 8 (0, .exitStep)) rfl, by unfold Ordered; decide, by decide⟩

/-- Callbacks, values and notifications. -/
def demoOrder : List (Nat × Op) :=
  [(0, .create true true), (0, .notifyAtExit (5, 6)), (0, .reset 0 (some 5)), (0, .notifyAtExit (7, 8)), (0, .atThreadExit 1), (0, .exit)]

example : ∃ tr s th, Exec (step .windows) (init 1) tr s ∧ s.threads[0]? = some th ∧ th.ph = .done ∧ tr.filterMap (rank 0) = [1, 2, 3, 3, 3, 3] :=
  ⟨_, _, _, exec_of_run (ls := demoOrder ++ List.replicate 9 (0, .exitStep)) rfl, rfl, rfl, by decide⟩

example : ∃ tr s th, Exec (step (.pthreadKey 4)) (init 1) tr s ∧ s.threads[0]? = some th ∧ th.ph = .done ∧ busy 0 tr = 0 ∧
    tr.filterMap (rank 0) = [1, 2, 3, 3, 3, 3] :=
  ⟨_, _, _, exec_of_run (ls := demoOrder ++ List.replicate 10 (0, .exitStep)) rfl, rfl, rfl, by decide, by decide⟩

/-! ## C64 -/

/-- The property is false on Windows: a callback registered by a cleanup function is never run. -/
theorem C64_refuted_windows : ∃ tr s, Exec (step .windows) (init 1) tr s ∧ .ended 0 ∈ tr ∧
    tr.countP (isRegistered 0 9) = 1 ∧ tr.countP (isRan 0 9) = 0 :=
  ⟨_, _, exec_of_run (ls := [(0, .create true true), (0, .reset 0 (some 5)), (0, .exit), (0, .exitStep), (0, .exitStep), (0, .exitStep), (0, .exitStep),
    (0, .atThreadExit 9), (0, .exitStep), (0, .exitStep)]) rfl, by decide, by decide, by decide⟩

/-- With a pthread key it is run, under the condition of C62.  What is missing: Windows, and more rounds than the system grants. -/
theorem C64_posix_partial {rounds n tr s} (h : Exec (step (.pthreadKey rounds)) (init n) tr s) {t : Nat} {th : Thread}
    (ht : s.threads[t]? = some th) (hd : th.ph = .done) (hb : busy t tr < rounds) (id : Nat) :
    tr.countP (isRan t id) = tr.countP (isRegistered t id) := C62_exactly_once_posix_partial h ht hd hb id

/-- The execution that fails on Windows. -/
example : ∃ tr s th, Exec (step (.pthreadKey 4)) (init 1) tr s ∧ s.threads[0]? = some th ∧ th.ph = .done ∧ busy 0 tr = 1 ∧ late 0 tr = true ∧ .ran 0 9 ∈ tr :=
  ⟨_, _, _, exec_of_run (ls := [(0, .create true true), (0, .reset 0 (some 5)), (0, .exit), (0, .exitStep), (0, .exitStep), (0, .exitStep), (0, .exitStep),
    (0, .atThreadExit 9)] ++ List.replicate 8 (0, .exitStep)) rfl, rfl, rfl, by decide, by decide, by decide⟩

/-! ## C65 -/

/-- The property is false for POSIX systems when the compiler supports thread-local variables: nothing is ever done at thread exit. -/
theorem C65_refuted_tls : ∃ tr s, Exec (step .posixTls) (init 1) tr s ∧ .ended 0 ∈ tr ∧ .registered 0 1 ∈ tr ∧ tr.countP (isRan 0 1) = 0 ∧
    stored ⟨0, 5⟩ tr = 1 ∧ disposed ⟨0, 5⟩ tr = 0 ∧ notifications 0 tr = some ⟨[(7, 8)], false⟩ :=
  ⟨_, _, exec_of_run (ls := [(0, .create true true), (0, .reset 0 (some 5)), (0, .atThreadExit 1), (0, .notifyAtExit (7, 8)), (0, .exit), (0, .exitStep)]) rfl,
    by decide, by decide, by decide, by decide, by decide, by decide⟩

/-- It is so for every thread and every execution of that configuration. -/
theorem C65_tls_never {n tr s} (h : Exec (step .posixTls) (init n) tr s) (t id : Nat) : Ev.ran t id ∉ tr ∧ ∀ c p, Ev.cleaned t .exit c p ∉ tr := by
  induction h with
  | init => simp
  | @snoc tr s s' l es hx hs ih =>
    have hi := (inv_exec hx).1
    have key : Ev.ran t id ∉ es ∧ ∀ c p, Ev.cleaned t .exit c p ∉ es := by
      obtain ⟨t₀, op⟩ := l
      cases sstep_of_step hs with
      | localStep hth hl =>
        have hti := hi.thr _ _ hth
        have hno := hti.posix rfl
        cases hl with
        | ran hp => rw [hp] at hno; cases hno
        | tlsClean hp => rw [hp] at hno; cases hno
        | reset => exact ⟨fun hm => (by rcases reset_events hm with ⟨x, h⟩ | h | ⟨p, h⟩ | ⟨p, h⟩ <;> cases h),
            fun c p hm => by rcases reset_events hm with ⟨x, h⟩ | h | ⟨p, h⟩ | ⟨p, h⟩ <;> cases h⟩
        | release => exact ⟨fun hm => (by rcases release_events hm with h | ⟨p, h⟩ <;> cases h),
            fun c p hm => by rcases release_events hm with h | ⟨p, h⟩ <;> cases h⟩
        | _ => simp
      | create hth hu hn =>
        obtain ⟨_, _, h3, _⟩ := tab_newKey hi.tab hn
        rw [h3]; simp
      | @destroy th o₀ ob₀ hth hu ho₀ hl₀ =>
        have hd := deleted_of_deleteKey (t := t₀) hi.tab ho₀ hl₀
        generalize (deleteKey s t₀ o₀ ob₀).1 = s₁ at *
        generalize (deleteKey s t₀ o₀ ob₀).2 = es₁ at *
        cases hd with
        | keep => simp
        | run => simp
        | forget => exact ⟨by simp, by simp⟩
    exact ⟨by simp [ih.1, key.1], fun c p => by simp [ih.2 c p, key.2 c p]⟩

/-- What remains true: on Windows, and with a pthread key under the condition of C62, a thread that is gone has left no value, no notification and
(with the exception of C64) no callback.  What is missing: `C65_refuted_tls`. -/
theorem C65_nothing_left_partial {cfg n tr s} (h : Exec (step cfg) (init n) tr s) {t : Nat} {th : Thread} (ht : s.threads[t]? = some th)
    (hd : th.ph = .done) (hc : (cfg = .windows ∧ late t tr = false) ∨ ∃ rounds, cfg = .pthreadKey rounds ∧ busy t tr < rounds) :
    (∀ p, heldBy p th = 0) ∧ notifications t tr = some ⟨[], false⟩ ∧ ∀ id, tr.countP (isRan t id) = tr.countP (isRegistered t id) := by
  have hs : th.slot = none := by
    rcases hc with ⟨rfl, _⟩ | ⟨rounds, rfl, hb⟩
    · exact goneW_exec h t th ht rfl hd
    · exact slot_none_of_bound h ht hd hb
  have hti := (inv_exec h).1.thr t th ht
  refine ⟨fun p => ?_, ?_, fun id => ?_⟩
  · have h3 := hti.noDying (.inr (by rw [hd]; rfl))
    have h4 := hti.idle (by rw [hd]; simp) (by rw [hd]; rfl)
    simp [heldBy, hd, hs, h3, h4, inCtx, inPhase]
  · rcases hc with ⟨rfl, _⟩ | ⟨rounds, rfl, hb⟩
    · exact C63_all_notified_windows h ht hd
    · exact C63_all_notified_posix_partial h ht hd hb
  · rcases hc with ⟨rfl, hl⟩ | ⟨rounds, rfl, hb⟩
    · exact C62_exactly_once_windows_partial h ht hd hl id
    · exact C62_exactly_once_posix_partial h ht hd hb id

/-- Concrete executions meeting the hypotheses: those above. -/
example : ∃ tr s th, Exec (step (.pthreadKey 4)) (init 1) tr s ∧ s.threads[0]? = some th ∧ th.ph = .done ∧ busy 0 tr < 4 ∧
    .cleaned 0 .exit 0 ⟨0, 5⟩ ∈ tr ∧ .ran 0 1 ∈ tr ∧ .notified 0 8 ∈ tr :=
  ⟨_, _, _, exec_of_run (ls := demoOrder ++ List.replicate 10 (0, .exitStep)) rfl, rfl, rfl, by decide, by decide, by decide, by decide⟩

end Verif.Tss
