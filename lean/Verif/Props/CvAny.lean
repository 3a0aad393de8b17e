import Verif.Proof.CvAnyWake

/-! # condition_variable_any (C39, C40) -/

namespace Verif.CvAny

/-- C39, for waits without a time point of a user's clock.  A notify_all, or a notify_one that finds nobody asleep,
leaves no thread asleep that had released the user's lock before. -/
theorem C39_no_lost_notification_partial (n : Nat) (tr : List Ev) (s : St) (h : Exec step (init n) tr s)
    (hk : NoUserClock tr) : NoLostNotification tr s := by
  intro pre post t all ws u he hr hret hw
  obtain ⟨q, hq, hp⟩ := (past_exec h hk).2 pre post t all ws u he hr hret hw
  rintro ⟨k, hb⟩
  rw [hq] at hb
  cases hb
  cases hp

/-- C39, without restriction of the clock.  Whenever a notification takes effect, every thread that is inside a wait
that has released the user's lock is asleep, or has been awake already since its last sleep; notify_one wakes a sleeper
if there is one, notify_all wakes all of them, and what they wake was in a wait that had released its lock. -/
theorem C39_wakes_sleepers (n : Nat) (tr : List Ev) (s s' : St) (h : Exec step (init n) tr s) (l : Nat × Act)
    (es : List Ev) (hs : step s l = some (s', es)) (t : Nat) (all : Bool) (ws : List Nat)
    (he : Ev.notified t all ws ∈ es) :
    (∀ u, hasReleased u tr = true → asleep s u ∨ (∃ k r, s.ths[u]? = some (.wake k r)) ∨ ∃ r, s.ths[u]? = some (.wRelock r)) ∧
    (∀ u, u ∈ ws → hasReleased u tr = true ∧ asleep s u ∧ ¬ asleep s' u) ∧
    (all = false → (∃ u, asleep s u) → ∃ u, ws = [u]) ∧
    (all = true → ∀ u, asleep s u → u ∈ ws) := by
  have I := inv_exec h
  obtain ⟨h3, ht, hcase⟩ := step_notified hs he
  have hint := (I.int t _ ht).mp rfl
  have hrelOf : ∀ u, asleep s u → hasReleased u tr = true := by
    rintro u ⟨k, hu⟩
    rw [I.rel u]; simp [relAt, hu, PC.rel]
  have hne : ∀ u, asleep s u → u ≠ t := by
    rintro u ⟨k, hu⟩ rfl
    rw [ht] at hu; cases hu
  refine ⟨?_, ?_, ?_, ?_⟩
  · intro u hu
    rw [I.rel u] at hu
    unfold relAt at hu
    split at hu
    · next q hq =>
      have hut : u ≠ t := by rintro rfl; rw [ht] at hq; cases hq; cases hu
      have hni : q.holdsInt ≠ true := by
        intro hh
        have := (I.int u q hq).mp hh
        rw [hint] at this; cases this; exact hut rfl
      cases q <;> first | (cases hu; done) | exact absurd rfl hni | skip
      · exact Or.inl ⟨_, hq⟩
      · exact Or.inr (Or.inl ⟨_, _, hq⟩)
      · exact Or.inr (Or.inr ⟨_, hq⟩)
    · cases hu
  · intro u hu
    rcases hcase with ⟨_, h4, h5⟩ | ⟨_, h4, _⟩ | ⟨v, k, _, h4, hv, h5⟩
    · rw [h4] at hu
      simp only [sleepers, List.mem_filter] at hu
      have hu2 := hu.2
      split at hu2
      · next p hp =>
        have ha : asleep s u := by cases p <;> first | exact ⟨_, hp⟩ | cases hu2
        refine ⟨hrelOf u ha, ha, ?_⟩
        rintro ⟨k, hk⟩
        rw [h5, get_set_ne (Ne.symm (hne u ha)), List.getElem?_map, hp] at hk
        cases p <;> simp [PC.wakeUp] at hk
      · cases hu2
    · rw [h4] at hu; cases hu
    · rw [h4] at hu
      obtain rfl := List.mem_singleton.mp hu
      have ha : asleep s u := ⟨k, hv⟩
      refine ⟨hrelOf u ha, ha, ?_⟩
      rintro ⟨k', hk⟩
      rw [h5, get_set_ne (Ne.symm (hne u ha)), get_set_self hv] at hk
      cases hk
  · rintro ha ⟨u, k, hu⟩
    rcases hcase with ⟨h4, _⟩ | ⟨_, _, h4, _⟩ | ⟨v, k, _, h4, _⟩
    · rw [ha] at h4; cases h4
    · have := List.any_eq_false.mp h4 _ (List.mem_of_getElem? hu)
      exact absurd rfl this
    · exact ⟨v, h4⟩
  · rintro ha u ⟨k, hu⟩
    rcases hcase with ⟨_, h4, _⟩ | ⟨h4, _⟩ | ⟨v, k, h4, _⟩
    · rw [h4]
      simp only [sleepers, List.mem_filter, List.mem_range]
      exact ⟨(List.getElem?_eq_some_iff.mp hu).1, by rw [hu]; rfl⟩
    · rw [ha] at h4; cases h4
    · rw [ha] at h4; cases h4

/-- `notify_one` wakes one of two sleepers. -/
example : ∃ tr s s' es, Exec step (init 3) tr s ∧ step s (2, .wakes 1) = some (s', es) ∧ Ev.notified 2 false [1] ∈ es ∧ asleep s 0 ∧ asleep s 1 :=
  ⟨_, _, _, _, exec_of_run (r := (_, _)) (ls := [(0, .lockUser), (0, .wait .plain), (0, .go), (0, .go), (0, .go),
   (1, .lockUser), (1, .wait .timed), (1, .go), (1, .go), (1, .go), (2, .notify false), (2, .go)]) rfl, rfl, by decide, ⟨_, rfl⟩, ⟨_, rfl⟩⟩

/-- The run that loses a notification: thread 0 waits until a time point of its own clock; the sleep times out early;
before it has locked the internal mutex again thread 1 notifies everybody; thread 0 reads its clock, which has not
reached the deadline, and goes to sleep again. -/
def lostRun : List (Nat × Act) :=
  [(0, .lockUser), (0, .wait .clocked), (0, .go), (0, .go), (0, .again), (0, .go), (0, .timeout),
   (1, .notify true), (1, .go), (1, .go), (1, .go), (0, .go), (0, .again), (0, .go)]

/-- C39 fails for waits against a clock of the user: a notify_all issued long after the wait released the user's lock
wakes nobody and the wait goes to sleep again without returning. -/
theorem C39_refuted : ∃ tr s, Exec step (init 2) tr s ∧ ¬ NoLostNotification tr s ∧
    asleep s 0 ∧ s.ths[1]? = some .idle := by
  refine ⟨_, _, exec_of_run (ls := lostRun) rfl, ?_, ⟨.clocked, rfl⟩, rfl⟩
  intro h
  exact h [.locked 0, .called 0 .clocked, .released 0, .notifying 1 true] [.notifyRet 1 true] 1 true [] 0 (by decide)
    (by decide) (by decide) (Or.inl rfl) ⟨.clocked, rfl⟩

/-- A run with two waiters; notify_one wakes one of them and notify_all the other. -/
def demo : List (Nat × Act) :=
  [(0, .lockUser), (0, .wait .plain), (0, .go), (0, .go), (0, .go),
   (1, .lockUser), (1, .wait .timed), (1, .go), (1, .go), (1, .go),
   (2, .lockUser), (2, .notify false), (2, .go), (2, .wakes 1), (2, .go), (1, .go), (1, .go), (2, .unlockUser), (1, .go),
   (2, .notify true), (2, .go), (2, .go), (2, .go)]

example : ∃ tr s, Exec step (init 3) tr s ∧ NoUserClock tr ∧ Ev.notified 2 false [1] ∈ tr ∧ Ev.notified 2 true [0] ∈ tr ∧
    Ev.ret 1 .ok ∈ tr ∧ s.ths = [.wake .plain .ok, .idle, .idle] := by
  refine ⟨_, _, exec_of_run (ls := demo) rfl, ?_, by decide, by decide, by decide, by decide⟩
  intro t h
  simp at h

/-- C40.  Whenever a call of wait returns or throws, on every path, the caller holds the user's lock, except if locking
it again failed itself; it held it when it called. -/
theorem C40_lock_held (n : Nat) (tr : List Ev) (s : St) (h : Exec step (init n) tr s) (pre post : List Ev) (t : Nat) :
    (∀ r, tr = pre ++ Ev.ret t r :: post → r ≠ .relockThrew → userOwner pre = some t) ∧
    (∀ k, tr = pre ++ Ev.called t k :: post → userOwner pre = some t) := by
  constructor
  · intro r he hr
    obtain ⟨tr1, s1, u, a, s2, as, bs, h1, hs, hpre⟩ := exec_cut' h he
    have I := inv_exec h1
    unfold step at hs
    simp only at hs
    split at hs
    · cases hs
    next pc ht =>
    split at hs <;> (try split at hs) <;> (try (cases hs; done)) <;> simp at hs
    all_goals (obtain ⟨hs1, hs2⟩ := hs; cases as <;> simp at hs2)
    · obtain ⟨⟨rfl, rfl⟩, rfl⟩ := hs2
      rw [hpre, List.append_nil, I.own]; exact I.must u _ ht rfl
    · obtain ⟨⟨rfl, rfl⟩, rfl⟩ := hs2
      rw [hpre, List.append_nil, I.own]; exact I.must u _ ht rfl
    · obtain ⟨rfl, hs2⟩ := hs2
      rename_i tail
      cases tail <;> simp at hs2
      obtain ⟨⟨rfl, rfl⟩, rfl⟩ := hs2
      rw [hpre, userOwner_append]; rfl
    · exact absurd hs2.1.2.symm hr
  · intro k he
    obtain ⟨tr1, s1, u, a, s2, as, bs, h1, hs, hpre⟩ := exec_cut' h he
    have I := inv_exec h1
    unfold step at hs
    simp only at hs
    split at hs
    · cases hs
    next pc ht =>
    split at hs <;> (try split at hs) <;> (try (cases hs; done)) <;> simp at hs
    all_goals (obtain ⟨hs1, hs2⟩ := hs; cases as <;> simp at hs2)
    · next hu =>
      obtain ⟨⟨rfl, rfl⟩, rfl⟩ := hs2
      rw [hpre, List.append_nil, I.own]; exact hu
    · next tail =>
      have := hs2.2
      cases tail <;> simp at this

/-- C40.  The user's lock stays exclusive: wait releases it only as its owner and takes it only when free. -/
theorem C40_exclusive (n : Nat) (tr : List Ev) (s : St) (h : Exec step (init n) tr s) (pre post : List Ev) (t : Nat) :
    (tr = pre ++ Ev.released t :: post → userOwner pre = some t) ∧
    (tr = pre ++ Ev.relocked t :: post → userOwner pre = none) := by
  constructor
  · intro he
    obtain ⟨tr1, s1, u, a, s2, as, bs, h1, hs, hpre⟩ := exec_cut' h he
    have I := inv_exec h1
    unfold step at hs
    simp only at hs
    split at hs
    · cases hs
    next pc ht =>
    split at hs <;> (try split at hs) <;> (try (cases hs; done)) <;> simp at hs
    all_goals (obtain ⟨hs1, hs2⟩ := hs; cases as <;> simp at hs2)
    · obtain ⟨rfl, rfl⟩ := hs2
      rw [hpre, List.append_nil, I.own]; exact I.must u _ ht rfl
    · obtain ⟨rfl, rfl⟩ := hs2
      rw [hpre, List.append_nil, I.own]; exact I.must u _ ht rfl
    · next tail =>
      have := hs2.2
      cases tail <;> simp at this
  · intro he
    obtain ⟨tr1, s1, u, a, s2, as, bs, h1, hs, hpre⟩ := exec_cut' h he
    have I := inv_exec h1
    unfold step at hs
    simp only at hs
    split at hs
    · cases hs
    next pc ht =>
    split at hs <;> (try split at hs) <;> (try (cases hs; done)) <;> simp at hs
    all_goals (obtain ⟨hs1, hs2⟩ := hs; cases as <;> simp at hs2)
    · next hu =>
      obtain ⟨rfl, rfl⟩ := hs2
      rw [hpre, List.append_nil, I.own]; exact hu
    · next tail =>
      have := hs2.2
      cases tail <;> simp at this

/-- C40.  A thread that is locking the user's lock, or has returned, does not hold the internal mutex; the internal mutex
is held by at most one thread, and by a thread that is going on. -/
theorem C40_internal_released (n : Nat) (tr : List Ev) (s : St) (h : Exec step (init n) tr s) (t : Nat) :
    ((∃ r, s.ths[t]? = some (.wRelock r)) ∨ s.ths[t]? = some .idle ∨ asleep s t → s.int ≠ some t) ∧
    (s.int = some t → ∃ a r, (a = Act.go ∨ ∃ u, a = .wakes u) ∧ step s (t, a) = some r) := by
  have I := inv_exec h
  constructor
  · rintro (⟨r, ht⟩ | ht | ⟨k, ht⟩) hi
    · cases (I.int t _ ht).mpr hi
    · cases (I.int t _ ht).mpr hi
    · cases (I.int t _ ht).mpr hi
  · intro hi
    obtain ⟨p, hp⟩ := I.intLt t hi
    exact enabled_of_holdsInt hp ((I.int t p hp).mpr hi)

/-- C40.  No cyclic wait: if no thread inside a call can go on, every thread is outside of all calls, asleep or
terminated, or it is locking the user's lock while a thread outside of all calls holds it. -/
theorem C40_no_deadlock (n : Nat) (tr : List Ev) (s : St) (h : Exec step (init n) tr s)
    (hq : ∀ t a, (a = Act.go ∨ ∃ u, a = .wakes u) → step s (t, a) = none) (t : Nat) (p : PC) (ht : s.ths[t]? = some p) :
    p = .idle ∨ asleep s t ∨ p = .dead ∨ ((∃ r, p = .wRelock r) ∧ ∃ u, s.user = some u ∧ s.ths[u]? = some .idle) := by
  have I := inv_exec h
  have hno : ¬ CanGo s := by
    rintro ⟨u, a, r, ha, hs⟩
    rw [hq u a ha] at hs; cases hs
  have hrest : ∀ (u : Nat) (q : PC), s.ths[u]? = some q → q = .idle ∨ asleep s u ∨ q = .dead ∨ ∃ r, q = .wRelock r := by
    intro u q hu
    cases q with
    | idle => exact Or.inl rfl
    | dead => exact Or.inr (Or.inr (Or.inl rfl))
    | blocked k => exact Or.inr (Or.inl ⟨k, hu⟩)
    | wRelock r => exact Or.inr (Or.inr (Or.inr ⟨r, rfl⟩))
    | wLock k => exact absurd (canGo_of_wantsInt I hu (Or.inl ⟨k, rfl⟩)) hno
    | wake k r => exact absurd (canGo_of_wantsInt I hu (Or.inr (Or.inl ⟨k, r, rfl⟩))) hno
    | nLock a => exact absurd (canGo_of_wantsInt I hu (Or.inr (Or.inr ⟨a, rfl⟩))) hno
    | wRelease k => exact absurd (canGo_of_holdsInt hu rfl) hno
    | wBlock k => exact absurd (canGo_of_holdsInt hu rfl) hno
    | wClock => exact absurd (canGo_of_holdsInt hu rfl) hno
    | wExit r => exact absurd (canGo_of_holdsInt hu rfl) hno
    | wUnwind => exact absurd (canGo_of_holdsInt hu rfl) hno
    | nSignal a => exact absurd (canGo_of_holdsInt hu rfl) hno
    | nUnlock => exact absurd (canGo_of_holdsInt hu rfl) hno
  rcases hrest t p ht with h1 | h1 | h1 | ⟨r, rfl⟩
  · exact Or.inl h1
  · exact Or.inr (Or.inl h1)
  · exact Or.inr (Or.inr (Or.inl h1))
  · refine Or.inr (Or.inr (Or.inr ⟨⟨r, rfl⟩, ?_⟩))
    cases hu : s.user with
    | none =>
      have := hq t .go (Or.inl rfl)
      simp [step, ht, hu] at this
    | some u =>
      obtain ⟨q, hq'⟩ := I.userLt u hu
      refine ⟨u, rfl, ?_⟩
      rcases hrest u q hq' with h1 | ⟨k, h1⟩ | h1 | ⟨r, h1⟩
      · rw [hq', h1]
      · rw [hq'] at h1; cases h1; exact absurd hu (I.not u _ hq' (Or.inl rfl))
      · subst h1; exact absurd hu (I.not u _ hq' (Or.inr rfl))
      · subst h1; exact absurd hu (I.not u _ hq' (Or.inl rfl))

/-- C39, C40.  Calls in progress come to an end: without new calls and without further rounds of the clock loop at most
eight steps per thread are possible. -/
theorem C40_runs_end (n : Nat) (tr : List Ev) (s : St) (h : Exec step (init n) tr s) (ls : List (Nat × Act))
    (r : St × List Ev) (hr : runFrom step s ls = some r) (hi : ∀ l, l ∈ ls → l.2.inner = true) :
    ls.length ≤ 8 * n := by
  have h1 := run_bound hr hi
  have h2 := total_le s.ths
  have h3 : s.ths.length = n := by
    have := h.invariant' (fun x => x.ths.length = n) (by simp [init]) (by
      intro x l x' es hx hs
      obtain ⟨t, a⟩ := l
      unfold step at hs
      simp only at hs
      split at hs
      · cases hs
      · split at hs <;> (try split at hs) <;> cases hs <;> simp [hx])
    exact this
  omega

/-- A run on which the wait fails inside the condition variable and the caller has its lock back. -/
example : ∃ tr s, Exec step (init 1) tr s ∧ Ev.ret 0 .threw ∈ tr ∧ s.user = some 0 ∧ s.int = none :=
  ⟨_, _, exec_of_run (ls := [(0, .lockUser), (0, .wait .plain), (0, .go), (0, .go), (0, .fail), (0, .go), (0, .go)]) rfl,
    by decide, by decide, by decide⟩

/-- A run that gets stuck only because a thread outside holds the user's lock. -/
example : ∃ tr s, Exec step (init 2) tr s ∧ s.ths = [.wRelock .ok, .idle] ∧ s.user = some 1 :=
  ⟨_, _, exec_of_run (ls := [(0, .lockUser), (0, .wait .plain), (0, .go), (0, .go), (0, .go), (1, .lockUser),
    (0, .spurious), (0, .go), (0, .go)]) rfl, by decide, by decide⟩

end Verif.CvAny
