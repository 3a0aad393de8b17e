import Verif.Proof.ManualFutexOrder

/-!
# C104: what waits find in the manual_reset_event on futexes

A load may read a value that is out of date.  A wait that returns has nevertheless found the event as it was at some instant that is not before anything the thread knows of.
-/

namespace Verif.ManualFutexOrder

open ManualFutex (PC Th isSet relOf workOf successOf flag)

theorem published_prefix {a b : List ManualFutex.Ev} {id : Nat} (h : Published relOf workOf a id) : Published relOf workOf (a ++ b) id := by
  obtain ⟨pre, post, e, j, w, h, hr, hw, hwk⟩ := h
  exact ⟨pre, post ++ b, e, j, w, by rw [h]; simp, hr, hw, hwk⟩

/-- **C104.** A wait reports success only if, at an instant that is not before anything the thread knows of, the event was set; and then the thread has learned all that was
done before the `set()` calls made up to that instant. -/
theorem C104_success {n : Nat} (hn : n < 2 ^ 31) {tr es : List Ev} {s s' : St} (h : Exec step (init n) tr s) {t : Nat} {l : Nat × Act}
    (hs : step s l = some (s', es)) {e : ManualFutex.Ev} (he : .ev e ∈ es) (hsucc : successOf e = some t) {th : Th} (ht : s.base.ths[t]? = some th) :
    ∃ th', s'.base.ths[t]? = some th' ∧
      Instant t th.view tr (fun es => flag es = true ∧ ∀ id, Published relOf workOf es id → id ∈ th'.view) := by
  obtain ⟨t', l⟩ := l
  obtain ⟨rfl, th₀, p, k1, k2, hc⟩ := succeeds hs he hsucc
  rw [ht] at k1; cases k1
  rcases hc with ⟨k, i, m, hk, hpi, hm, hset, hv⟩ | ⟨k, hk, hv⟩
  · refine ⟨_, hv, pos_instant h ht k2 hpi hm ?_⟩
    intro tr₁ s₁ h₁ e₁ _
    refine ⟨?_, fun id hp => ?_⟩
    · rw [(base_inv hn h₁).flag, e₁]; exact hset
    · have := (vinv_exec h₁).pub id hp
      rw [e₁] at this
      exact List.mem_append_right _ this
  · obtain ⟨m, hm, hset⟩ := ((inv_exec h).seen _ th p ht k2).1 true none (by rw [hk]; rfl)
    refine ⟨_, hv, pos_instant h ht k2 (Nat.le_refl _) hm ?_⟩
    rintro tr₁ s₁ h₁ e₁ ⟨tr₂, e₂⟩
    refine ⟨?_, fun id hp => ?_⟩
    · rw [(base_inv hn h₁).flag, e₁]; exact hset
    · refine List.mem_append_right _ ((vinv_exec h).pub id ?_)
      rw [e₂, plain_append]
      exact published_prefix hp

/-- A `try_wait` or timed wait reports failure only if, at an instant that is not before anything the thread knows of, the event was not set. -/
theorem C104_fails {n : Nat} (hn : n < 2 ^ 31) {tr es : List Ev} {s s' : St} (h : Exec step (init n) tr s) {t : Nat} {l : Nat × Act}
    (hs : step s l = some (s', es)) (he : .ev (.tryDone t false) ∈ es ∨ .ev (.timedDone t false) ∈ es) {th : Th} (ht : s.base.ths[t]? = some th) :
    Instant t th.view tr (fun es => flag es = false) := by
  obtain ⟨t', l⟩ := l
  obtain ⟨rfl, th₀, p, k1, k2, hc⟩ := fails hs he
  rw [ht] at k1; cases k1
  rcases hc with ⟨i, m, hk, hpi, hm, hset⟩ | hk
  · refine pos_instant h ht k2 hpi hm ?_
    intro tr₁ s₁ h₁ e₁ _
    rw [(base_inv hn h₁).flag, e₁]; exact hset
  · obtain ⟨m, hm, hset⟩ := ((inv_exec h).seen _ th p ht k2).1 false none (by rw [hk]; rfl)
    refine pos_instant h ht k2 (Nat.le_refl _) hm ?_
    intro tr₁ s₁ h₁ e₁ _
    rw [(base_inv hn h₁).flag, e₁]; exact hset

/-- A wait by a thread that knows of every write to the word succeeds only if the event is set now, -/
theorem C104_informed_success {n : Nat} (hn : n < 2 ^ 31) {tr es : List Ev} {s s' : St} (h : Exec step (init n) tr s) {t : Nat} {l : Nat × Act}
    (hs : step s l = some (s', es)) {e : ManualFutex.Ev} (he : .ev e ∈ es) (hsucc : successOf e = some t) {th : Th} (ht : s.base.ths[t]? = some th)
    (hi : Informed t th.view tr) : flag (plain tr) = true := by
  obtain ⟨t', l⟩ := l
  obtain ⟨rfl, th₀, p, k1, k2, hc⟩ := succeeds hs he hsucc
  rw [ht] at k1; cases k1
  rw [(base_inv hn h).flag]
  rcases hc with ⟨k, i, m, hk, hpi, hm, hset, hv⟩ | ⟨k, hk, hv⟩
  · rw [← newest_of_informed h ht k2 hi hpi hm]; exact hset
  · obtain ⟨m, hm, hset⟩ := ((inv_exec h).seen _ th p ht k2).1 true none (by rw [hk]; rfl)
    rw [← newest_of_informed h ht k2 hi (Nat.le_refl _) hm]; exact hset

/-- and fails only if it is not. -/
theorem C104_informed_fails {n : Nat} (hn : n < 2 ^ 31) {tr es : List Ev} {s s' : St} (h : Exec step (init n) tr s) {t : Nat} {l : Nat × Act}
    (hs : step s l = some (s', es)) (he : .ev (.tryDone t false) ∈ es ∨ .ev (.timedDone t false) ∈ es) {th : Th} (ht : s.base.ths[t]? = some th)
    (hi : Informed t th.view tr) : flag (plain tr) = false := by
  obtain ⟨t', l⟩ := l
  obtain ⟨rfl, th₀, p, k1, k2, hc⟩ := fails hs he
  rw [ht] at k1; cases k1
  rw [(base_inv hn h).flag]
  rcases hc with ⟨i, m, hk, hpi, hm, hset⟩ | hk
  · rw [← newest_of_informed h ht k2 hi hpi hm]; exact hset
  · obtain ⟨m, hm, hset⟩ := ((inv_exec h).seen _ th p ht k2).1 false none (by rw [hk]; rfl)
    rw [← newest_of_informed h ht k2 hi (Nat.le_refl _) hm]; exact hset

/-- Whatever values are loaded, a thread is asleep while the event is set only if another is about to wake all of them. -/
theorem C104_no_lost_wakeup {n : Nat} (hn : n < 2 ^ 31) {tr : List Ev} {s : St} (h : Exec step (init n) tr s) (hset : flag (plain tr) = true)
    (hsleep : ∃ th ∈ s.base.ths, th.isAsleep = true) :
    ∃ (j : Nat) (th : Th), s.base.ths[j]? = some th ∧ th.waking = true ∧ ∃ s' es, step s (j, .op .go) = some (s', es) ∧ ∀ th ∈ s'.base.ths, th.isAsleep = false := by
  have I := base_inv hn h
  have hw := I.wake (I.flag ▸ hset) (by
    obtain ⟨th, h1, h2⟩ := hsleep
    exact List.countP_pos_iff.mpr ⟨th, h1, h2⟩)
  obtain ⟨th, hm, hk⟩ := List.countP_pos_iff.mp hw
  obtain ⟨j, hj⟩ := List.getElem?_of_mem hm
  have hlen := pos_len h
  obtain ⟨p, hp⟩ : ∃ p, s.pos[j]? = some p := by
    have := (List.getElem?_eq_some_iff.mp hj).1
    exact ⟨_, List.getElem?_eq_getElem (by omega)⟩
  have hpc : th.pc = .setWake := by
    obtain ⟨pc, v⟩ := th
    cases pc <;> first | rfl | cases hk
  refine ⟨j, th, hj, hk, ?_⟩
  unfold step ManualFutex.step
  simp only [hj, hp, hpc, direct, writes]
  refine ⟨_, _, rfl, ?_⟩
  intro th' hm'
  have := ManualFutex.wakeUp_asleep (s.base.ths.set j { th with pc := .idle })
  rw [List.countP_eq_zero] at this
  have := this th' (by simpa using hm')
  simpa using this

/-! ## The hypotheses are met -/

/-- Thread 0 does something and sets the event; thread 1 resets it; thread 2, which knows of neither, calls `try_wait`. -/
def demo : List (Nat × Act) :=
  [(0, .op .doWork), (0, .op (.call .set)), (0, .op .go), (1, .op (.call .reset)), (1, .op .go), (2, .op (.call .tryWait))]

/-- It may load the value set, and learns what thread 0 has done, -/
example : ∃ tr s s' th th', Exec step (init 3) tr s ∧ s.base.ths[2]? = some th ∧ step s (2, .load 1) = some (s', [.ev (.tryDone 2 true)]) ∧
    successOf (.tryDone 2 true) = some 2 ∧ flag (plain tr) = false ∧ s'.base.ths[2]? = some th' ∧ 0 ∉ th.view ∧ 0 ∈ th'.view :=
  ⟨_, _, _, _, _, exec_of_run (ls := demo) rfl, rfl, rfl, rfl, rfl, rfl, by decide, by decide⟩

/-- or the value after the reset, -/
example : ∃ tr s s' th, Exec step (init 3) tr s ∧ s.base.ths[2]? = some th ∧ step s (2, .load 2) = some (s', [.ev (.tryDone 2 false)]) :=
  ⟨_, _, _, _, exec_of_run (ls := demo) rfl, rfl, rfl⟩

/-- but if it has learned of the reset, it cannot load the value before it. -/
example : runFrom step (init 3) (demo.take 5 ++ [(2, .sync 1), (2, .op (.call .tryWait)), (2, .load 1)]) = none := rfl

/-- It loads the one after it. -/
example : ∃ s tr, runFrom step (init 3) (demo.take 5 ++ [(2, .sync 1), (2, .op (.call .tryWait)), (2, .load 2)]) = some (s, tr) ∧
    .ev (.tryDone 2 false) ∈ tr ∧ s.pos = [1, 2, 2] := ⟨_, _, rfl, by decide, rfl⟩

/-- A timed wait finds the event unset, is woken, finds it set, and succeeds, though the event has been reset again. -/
example : ∃ tr s s', Exec step (init 2) tr s ∧ step s (0, .op .go) = some (s', [.changed 0 0, .ev (.timedDone 0 true)]) ∧ flag (plain tr) = false :=
  ⟨_, _, _, exec_of_run (ls := [(0, .op (.call .timedWait)), (0, .load 0), (0, .op .go), (0, .op .go), (1, .op (.call .set)), (1, .op .go), (1, .op .go),
    (1, .op (.call .reset)), (1, .op .go), (0, .load 2)]) rfl, rfl, rfl⟩

/-- A timed wait times out. -/
example : ∃ tr s s' th, Exec step (init 1) tr s ∧ s.base.ths[0]? = some th ∧ step s (0, .op .go) = some (s', [.changed 0 0, .ev (.timedDone 0 false)]) :=
  ⟨_, _, _, _, exec_of_run (ls := [(0, .op (.call .timedWait)), (0, .load 0), (0, .op .go), (0, .op .go), (0, .op .timeout)]) rfl, rfl, rfl⟩

/-- A thread that knows of all that was written. -/
example : ∃ tr s s' th, Exec step (init 1) tr s ∧ s.base.ths[0]? = some th ∧ Informed 0 th.view tr ∧ step s (0, .load 1) = some (s', [.ev (.waitDone 0)]) := by
  refine ⟨_, _, _, _, exec_of_run (ls := [(0, .op (.call .set)), (0, .op .go), (0, .op (.call .wait))]) rfl, rfl, ?_, rfl⟩
  rintro a e b he ⟨u, w, rfl⟩
  have hm : Ev.changed u w ∈ [Ev.ev (.called 0 .set), .changed 0 1, .ev (.wasSet 0), .ev (.setDone 0), .ev (.called 0 .wait)] := by
    have : Ev.changed u w ∈ a ++ Ev.changed u w :: b := by simp
    rw [← he] at this
    exact this
  have : u = 0 := by simp at hm; exact hm.1
  exact ⟨u, w, rfl, .inl this⟩

/-- A thread is asleep while the event is set, and thread 1 is about to wake it. -/
example : ∃ tr s, Exec step (init 2) tr s ∧ flag (plain tr) = true ∧ ∃ th ∈ s.base.ths, th.isAsleep = true :=
  ⟨_, _, exec_of_run (ls := [(0, .op (.call .wait)), (0, .load 0), (0, .op .go), (0, .op .go), (1, .op (.call .set)), (1, .op .go)]) rfl, rfl, _, List.mem_cons_self .., rfl⟩

end Verif.ManualFutexOrder
