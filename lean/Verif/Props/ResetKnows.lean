import Verif.Proof.MonitorOrder
import Verif.Props.ManualFutexOrder

/-!
# C105: what a reset knows

A thread may call `reset()`, test a condition and call `wait()` if it does not hold; others make it hold and call `set()`.  If the reset comes after the set, it clears the signal, and the
test has to find the condition.  Thus what was done before the set has to be known to the thread whose reset has cleared it.
-/

namespace Verif

namespace MonitorOrder

open Verif.Atomic (Op One SetReset)
open Verif.Monitor (Mon PC manualEvent autoEvent semaphore userClock)

variable {D S : Type}

/-- **C105**, the emulations: an operation that returns, be it `reset`, `set`, a wait that succeeds or one that does not, knows all that was done before the updates made so far. -/
theorem C105_emulation {M : Mon D S} {n : Nat} {tr es : List (Ev S)} {s s' : St D S} (h : Exec (step M) (init M n) tr s) {l : Nat × Act S}
    (hs : step M s l = some (s', es)) {t : Nat} {op : Op S} {r : Bool} (he : .ev (.ret t op r) ∈ es) {id : Nat} (hp : Published relOf workOf tr id) :
    ∃ v, s'.views[t]? = some v ∧ id ∈ v := by
  have I := inv_exec h
  obtain ⟨u, a⟩ := l
  unfold step at hs
  simp only at hs
  split at hs
  · next pc v ht hv =>
    split at hs
    · split at hs
      · cases hs
      · next b es' hb =>
        have hes : es = puts u pc ++ es'.map .ev := by
          split at hs <;> (cases hs; rfl)
        have hm : .ret t op r ∈ es' := by
          rw [hes] at he
          rcases List.mem_append.mp he with h | h
          · cases pc <;> simp [puts] at h
          · obtain ⟨x, hx, h⟩ := List.mem_map.mp h
            cases h; exact hx
        obtain ⟨rfl, ho⟩ := owner_ret I.base hb hm
        obtain ⟨w, h1, _, h3⟩ := I.owner _ ho
        refine ⟨w, ?_, h3 id hp⟩
        split at hs
        · next h0 _ => rw [ho] at h0; cases h0
        · cases hs; exact h1
        · cases hs; exact h1
    · split at hs
      · cases hs; simp at he
      · cases hs
    · split at hs
      · cases hs; cases he
      · cases hs
  · cases hs

/-- At the moment of its update, too, a signalling operation knows all that was done before the updates made so far. -/
theorem C105_emulation_update {M : Mon D S} {n : Nat} {tr es : List (Ev S)} {s s' : St D S} (h : Exec (step M) (init M n) tr s) {l : Nat × Act S}
    (hs : step M s l = some (s', es)) {t : Nat} {x : S} (he : .put t x ∈ es) {id : Nat} (hp : Published relOf workOf tr id) :
    ∃ v, s.views[t]? = some v ∧ id ∈ v := by
  have I := inv_exec h
  obtain ⟨u, a⟩ := l
  unfold step at hs
  simp only at hs
  split at hs
  · next pc v ht hv =>
    split at hs
    · split at hs
      · cases hs
      · next b es' hb =>
        have hes : es = puts u pc ++ es'.map .ev := by
          split at hs <;> (cases hs; rfl)
        have hm : t = u ∧ pc = .sig x := by
          rw [hes] at he
          rcases List.mem_append.mp he with h | h
          · cases pc <;> simp [puts] at h
            exact ⟨h.1, by rw [h.2]⟩
          · obtain ⟨x, hx, h⟩ := List.mem_map.mp h
            cases h
        obtain ⟨rfl, rfl⟩ := hm
        obtain ⟨w, h1, _, h3⟩ := I.owner _ ((I.base.own _ _ ht).mp rfl)
        exact ⟨w, h1, h3 id hp⟩
    · split at hs
      · cases hs; simp at he
      · cases hs
    · split at hs
      · cases hs; cases he
      · cases hs
  · cases hs

/-! ## The hypotheses are met -/

/-- Thread 0 does something and sets the event, thread 1 resets it. -/
def demo : List (Nat × Act SetReset) :=
  [(0, .doWork), (0, .op (.call (.sig .set))), (0, .op .go), (0, .op .go), (0, .op .go), (0, .op .go), (1, .op (.call (.sig .reset))), (1, .op .go), (1, .op .go)]

example : ∃ tr s s', Exec (step (manualEvent userClock)) (init (manualEvent userClock) 2) tr s ∧ Published relOf workOf tr 0 ∧
    step (manualEvent userClock) s (1, .op .go) = some (s', [.ev (.ret 1 (.sig .reset) true)]) ∧ s.base.d = false ∧ s'.views = [[0], [0]] :=
  ⟨_, _, _, exec_of_run (ls := demo) rfl, ⟨[.work 0 0, .ev (.called 0 (.sig .set))], _, .put 0 .set, 0, .work 0 0, rfl, rfl, by simp, rfl⟩, rfl, rfl, rfl⟩

example : ∃ tr s s', Exec (step (manualEvent userClock)) (init (manualEvent userClock) 2) tr s ∧ Published relOf workOf tr 0 ∧
    step (manualEvent userClock) s (1, .op .go) = some (s', [.put 1 .reset]) :=
  ⟨_, _, _, exec_of_run (ls := demo.take 8) rfl, ⟨[.work 0 0, .ev (.called 0 (.sig .set))], _, .put 0 .set, 0, .work 0 0, rfl, rfl, by simp, rfl⟩, rfl⟩

/-- Before it has locked the mutex, thread 1 does not know what thread 0 has done. -/
example : ∃ s tr, runFrom (step (manualEvent userClock)) (init (manualEvent userClock) 2) (demo.take 7) = some (s, tr) ∧ s.views = [[0], []] := ⟨_, _, rfl, rfl⟩

/-- A post and a wait of the semaphore, which sleeps in between. -/
example : ∃ tr s s', Exec (step (semaphore userClock 0)) (init (semaphore userClock 0) 2) tr s ∧ Published relOf workOf tr 0 ∧
    step (semaphore userClock 0) s (1, .op .go) = some (s', [.ev (.ret 1 (.acq .wait) true)]) :=
  ⟨_, _, _, exec_of_run (ls := [(1, .op (.call (.acq .wait))), (1, .op .go), (1, .op .go), (0, .doWork), (0, .op (.call (.sig .post))), (0, .op .go), (0, .op .go),
    (0, .op (.wake 1 false)), (0, .op .go), (1, .op .go), (1, .op .go), (1, .op .go)]) rfl,
    ⟨[.ev (.called 1 (.acq .wait)), .work 0 0, .ev (.called 0 (.sig .post))], _, .put 0 .post, 0, .work 0 0, rfl, rfl, by simp, rfl⟩, rfl⟩

end MonitorOrder

namespace ManualFutexOrder

open ManualFutex (PC Th relOf workOf successOf flag)

/-- **C105**, refuted for the futex-based event: thread 0 does something (item 0) and sets the event; thread 1 resets it, does not know of item 0, finds nothing to do and waits.
All calls but this one have returned: it sleeps, and nobody is going to set the event. -/
theorem C105_futex_refuted : ∃ tr s, Exec step (init 2) tr s ∧
    tr = [.ev (.work 0 0), .ev (.called 0 .set), .changed 0 1, .ev (.wasSet 0), .ev (.setDone 0), .ev (.called 1 .reset), .changed 1 0, .ev (.resetDone 1)] ∧
    Published relOf workOf (plain tr) 0 ∧ (∃ th, s.base.ths[1]? = some th ∧ th.pc = .idle ∧ 0 ∉ th.view) ∧
    ∃ tr' s', Exec step s tr' s' ∧ tr' = [.ev (.called 1 .wait), .changed 1 2] ∧ s'.base.ths.map Th.pc = [.idle, .asleep .wait 1] := by
  refine ⟨_, _, exec_of_run (ls := [(0, .op .doWork), (0, .op (.call .set)), (0, .op .go), (1, .op (.call .reset)), (1, .op .go)]) rfl, rfl,
    ⟨[.work 0 0, .called 0 .set], [.setDone 0, .called 1 .reset, .resetDone 1], .wasSet 0, 0, .work 0 0, rfl, rfl, by simp, rfl⟩, ⟨_, rfl, rfl, by decide⟩, ?_⟩
  exact ⟨_, _, exec_of_run (ls := [(1, .op (.call .wait)), (1, .load 2), (1, .op .go), (1, .op .go)]) rfl, rfl, rfl⟩

/-- What is true: a thread that has reset the event knows all that was done before the earlier `set()` calls as soon as a later wait of its own succeeds. -/
theorem C105_futex_later_partial {n : Nat} (hn : n < 2 ^ 31) {tr es a b : List Ev} {s s' : St} (h : Exec step (init n) tr s) {t : Nat} {w : UInt32}
    (hreset : tr = a ++ .changed t w :: .ev (.resetDone t) :: b) {l : Nat × Act} (hs : step s l = some (s', es)) {e : ManualFutex.Ev} (he : .ev e ∈ es)
    (hsucc : successOf e = some t) {id : Nat} (hp : Published relOf workOf (plain a) id) : ∃ th, s'.base.ths[t]? = some th ∧ id ∈ th.view := by
  obtain ⟨th, ht⟩ : ∃ th, s.base.ths[t]? = some th := by
    obtain ⟨t', l⟩ := l
    obtain ⟨rfl, th, _, h1, _⟩ := succeeds hs he hsucc
    exact ⟨th, h1⟩
  obtain ⟨th', h1, tr₁, tr₂, e₁, ⟨_, h2⟩, h3⟩ := C104_success hn h hs he hsucc ht
  refine ⟨th', h1, h2 id ?_⟩
  obtain ⟨m, hm⟩ := h3 a _ _ hreset ⟨t, w, rfl, .inl rfl⟩
  rw [hm, plain_append]
  exact published_prefix hp

/-- Thread 1 resets the event, and waits until thread 2 sets it; then it knows what thread 0 did before it had set the event the first time. -/
example : ∃ tr s s' a b, Exec step (init 3) tr s ∧ tr = a ++ .changed 1 0 :: .ev (.resetDone 1) :: b ∧ Published relOf workOf (plain a) 0 ∧
    step s (1, .load 3) = some (s', [.ev (.waitDone 1)]) ∧ s'.base.ths.map Th.view = [[0], [0], []] :=
  ⟨_, _, _, [.ev (.work 0 0), .ev (.called 0 .set), .changed 0 1, .ev (.wasSet 0), .ev (.setDone 0), .ev (.called 1 .reset)], _,
    exec_of_run (ls := [(0, .op .doWork), (0, .op (.call .set)), (0, .op .go), (1, .op (.call .reset)), (1, .op .go), (2, .op (.call .set)), (2, .op .go),
      (1, .op (.call .wait))]) rfl, rfl,
    ⟨[.work 0 0, .called 0 .set], [.setDone 0, .called 1 .reset], .wasSet 0, 0, .work 0 0, rfl, rfl, by simp, rfl⟩, rfl, rfl⟩

end ManualFutexOrder

end Verif
