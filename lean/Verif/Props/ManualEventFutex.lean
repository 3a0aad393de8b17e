import Verif.Proof.ManualEventFutex

/-! Properties C29-C31: `manual_reset_event` on Linux futexes. -/

namespace Verif.ManualFutex

/-- Threads 0 and 1 block, thread 2 works and sets the event, everybody returns. -/
def demo : List (Nat × Act) :=
  [(0, .call .wait), (0, .go), (0, .go), (0, .go),
   (1, .call .timedWait), (1, .go), (1, .go), (1, .go),
   (2, .doWork), (2, .call .set), (2, .go),          -- 11 steps: set, not yet woken
   (2, .go), (0, .load 5), (1, .load 5), (0, .go), (1, .go)]

example : ∃ tr s, Exec step (init 3) tr s ∧ s.word.val = 1 ∧
    tr = [.called 0 .wait, .called 1 .timedWait, .work 2 0, .called 2 .set, .wasSet 2, .setDone 2, .waitDone 0,
      .timedDone 1 true] :=
  ⟨_, _, exec_of_run (ls := demo) rfl, rfl, rfl⟩

/-- **C29.** While the event is set, a sleeping thread is never forgotten: some other thread is inside `set()`, about
to wake everybody, and can take that step. -/
theorem C29_no_lost_wakeup {n : Nat} (hn : n < 2 ^ 31) {tr : List Ev} {s : St} (h : Exec step (init n) tr s)
    (hset : flag tr = true) (hsleep : ∃ th ∈ s.ths, th.isAsleep = true) :
    ∃ (j : Nat) (th : Th), s.ths[j]? = some th ∧ th.waking = true ∧ ∃ s' es, step s (j, .go) = some (s', es) ∧
      ∀ th ∈ s'.ths, th.isAsleep = false := by
  have I := inv_exec hn h
  have hw := I.wake (by rw [← I.flag]; exact hset) (List.countP_pos_iff.mpr hsleep)
  obtain ⟨j, ⟨pc, v⟩, hj, hp⟩ := exists_of_countP_pos hw
  cases pc <;> first | cases hp | skip
  refine ⟨j, _, hj, rfl, { s with ths := (s.ths.set j ⟨.idle, v⟩).map Th.wakeUp }, [.setDone j], ?_, ?_⟩
  · simp [step, hj]
  · intro th hth
    have := List.countP_eq_zero.mp (wakeUp_asleep (s.ths.set j ⟨.idle, v⟩)) th hth
    simpa using this

example : ∃ tr s, Exec step (init 3) tr s ∧ flag tr = true ∧ ∃ th ∈ s.ths, th.isAsleep = true :=
  ⟨_, _, exec_of_run (ls := demo.take 11) rfl, rfl, ⟨_, List.mem_cons_self, rfl⟩⟩

/-- **C29**, second half: when the event is set and every `set()` call has returned, nobody is asleep. -/
theorem C29_set_releases_all {n : Nat} (hn : n < 2 ^ 31) {tr : List Ev} {s : St} (h : Exec step (init n) tr s)
    (hset : flag tr = true) (hdone : ∀ th ∈ s.ths, th.waking = false) : ∀ th ∈ s.ths, th.isAsleep = false := by
  intro th hth
  apply Decidable.byContradiction
  intro hc
  obtain ⟨j, th', hj, hw, _⟩ := C29_no_lost_wakeup hn h hset ⟨th, hth, by simpa using hc⟩
  rw [hdone th' (List.mem_of_getElem? hj)] at hw
  cases hw

example : ∃ tr s, Exec step (init 3) tr s ∧ flag tr = true ∧ (∀ th ∈ s.ths, th.waking = false) ∧
    ∃ th ∈ s.ths, th.blocked = true :=
  ⟨_, _, exec_of_run (ls := demo.take 12) rfl, rfl, by decide, ⟨_, List.mem_cons_self, rfl⟩⟩

/-- **C30.** A wait that reports success was called, and at some instant since its call the event was set. -/
theorem C30_success_implies_set {n : Nat} (hn : n < 2 ^ 31) {tr es : List Ev} {s s' : St} {l : Nat × Act} {e : Ev}
    {t : Nat} (h : Exec step (init n) tr s) (hs : step s l = some (s', es)) (he : e ∈ es)
    (hsucc : successOf e = some t) : setDuringCall t tr = true := by
  have I := inv_exec hn h
  obtain ⟨pc, v, hth, ⟨k, rfl, hset⟩ | ⟨k, rfl⟩⟩ := step_success hs he hsucc
  · exact during_of_flag (by rw [I.flag]; exact hset)
  · exact I.loc t _ hth

example : ∃ (tr es : List Ev) (s s' : St), Exec step (init 3) tr s ∧ step s (0, .go) = some (s', es) ∧
    Ev.waitDone 0 ∈ es :=
  ⟨_, _, _, _, exec_of_run (ls := demo.take 14) rfl, rfl, by decide⟩

/-- A set-reset pulse can release a waiter after the reset: the event was set during the call though it is not set when
the wait returns. -/
example : ∃ tr s, Exec step (init 2) tr s ∧ flag tr = false ∧ Ev.waitDone 0 ∈ tr :=
  ⟨_, _, exec_of_run (ls := [(0, .call .wait), (0, .go), (0, .go), (1, .call .set), (1, .go), (1, .go), (1, .call .reset),
    (1, .go), (0, .spurious), (0, .load 3), (0, .go)]) rfl, rfl, by decide⟩

/-- **C30**, second half: the word always consists of the flag (set by `set`, cleared by `reset`) and the exact number of
threads inside a blocking wait. -/
theorem C30_word_exact {n : Nat} (hn : n < 2 ^ 31) {tr : List Ev} {s : St} (h : Exec step (init n) tr s) :
    s.word.val.toNat = 2 * s.ths.countP Th.blocked + (if flag tr then 1 else 0) := by
  have I := inv_exec hn h
  rw [I.flag]
  exact I.word

/-- **C31.** A wait that reports success sees everything any thread did before an earlier `set()` of its own, whether or
not the event was already set then. -/
theorem C31_set_publishes {n : Nat} {tr es : List Ev} {s s' : St} {l : Nat × Act} {e : Ev} {t id : Nat}
    (h : Exec step (init n) tr s) (hs : step s l = some (s', es)) (he : e ∈ es) (hsucc : successOf e = some t)
    (hp : Published relOf workOf tr id) : ∃ th, s'.ths[t]? = some th ∧ id ∈ th.view := by
  obtain ⟨th, h1, h2⟩ := (step_view hs).succ e he t hsucc
  exact ⟨th, h1, h2 ((vinv_exec h).pub id hp)⟩

example : ∃ (tr es : List Ev) (s s' : St), Exec step (init 3) tr s ∧ step s (0, .go) = some (s', es) ∧
    Ev.waitDone 0 ∈ es ∧ Published relOf workOf tr 0 :=
  ⟨_, _, _, _, exec_of_run (ls := demo.take 14) rfl, rfl, by decide,
    ⟨[.called 0 .wait, .called 1 .timedWait, .work 2 0, .called 2 .set], [.setDone 2], .wasSet 2, 2, .work 2 0, rfl, rfl,
      by decide, rfl⟩⟩

end Verif.ManualFutex
