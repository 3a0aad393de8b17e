import Verif.Proof.WinCvOrder

/-!
# The Windows condition variable with stale loads of the waiter count: property C106

For any number of threads, any interleaving, any values the memory model lets the loads read, any timeouts and failures.
-/

namespace Verif.WinCvOrder

/-- Thread 0 waits; thread 1, which does not know of it, notifies and reads the old count; then it locks the user's lock and notifies again. -/
def demo : List (Nat × Act) :=
  [(0, .op .userLock), (0, .op (.callWait .wait)), (0, .op .go), (0, .op .go), (0, .op .go), (0, .op .go),
   (1, .op (.callNotify false)), (1, .load 0),
   (1, .op .userLock), (1, .op .userUnlock), (1, .op (.callNotify false))]

/-- Its events. -/
def demoEvents : List Ev :=
  [.acq 0 .user, .ev 0 (.called 0 .wait), .acq 0 .internal, .wrote 0 1, .ev 0 (.registered 0), .rel 0 .internal, .ev 0 (.unlocked 0), .rel 0 .user,
   .ev 1 (.notify 1 false), .ev 1 (.notified 1), .acq 1 .user, .rel 1 .user, .ev 1 (.notify 1 false)]

/-- A stale load: the notification is skipped although a thread waits. -/
example : ∃ tr s, Exec step (init 2) tr s ∧ Ev.ev 1 (.notified 1) ∈ tr ∧ WinCv.unnotified (plain tr) s.base = 1 ∧ s.base.ths[1]? = some (.nLoad false) :=
  ⟨_, _, exec_of_run (ls := demo) rfl, by decide, by decide, rfl⟩

/-- After the user's lock was locked only the new count can be read. -/
example : ∃ tr s, Exec step (init 2) tr s ∧ s.base.ths[1]? = some (.nLoad false) ∧ step s (1, .load 0) = none ∧ (step s (1, .load 1)).isSome = true :=
  ⟨_, _, exec_of_run (ls := demo) rfl, rfl, rfl, rfl⟩

/-- **C106.**  If a notification is skipped because the count read is 0, the execution passed through an instant at which every waiting thread had been notified, and which
is after every change of the count that happens before the notification. -/
theorem C106_skip {n : Nat} {tr es : List Ev} {s s' : St} {t : Nat} {all : Bool} {a : Act} (h : Exec step (init n) tr s)
    (ht : s.base.ths[t]? = some (.nLoad all)) (hs : step s (t, a) = some (s', es)) (he : Ev.ev t (.notified t) ∈ es) :
    ∃ tr₁ tr₂ s₁, tr = tr₁ ++ tr₂ ∧ Exec step (init n) tr₁ s₁ ∧ Exec step s₁ tr₂ s ∧ WinCv.unnotified (plain tr₁) s₁.base = 0 ∧
      ∀ i, IsWrite tr i → Seen tr i t → i < tr₁.length := by
  have hi := inv_exec h
  unfold step at hs
  simp only [ht] at hs
  split at hs
  · cases hs
  · next i =>
    split at hs
    · cases hs
    next v hv =>
    split at hs
    rotate_left
    · cases hs
    next hle =>
    simp only [loaded] at hs
    by_cases hv0 : 0 < v
    · simp only [if_pos hv0] at hs
      cases hs
      exfalso
      simp [events, writes] at he
    · have hv0 : v = 0 := by omega
      subst hv0
      obtain ⟨tr₁, tr₂, s₁, h1, h2, h3, h4, h5⟩ := had h i 0 hv
      refine ⟨tr₁, tr₂, s₁, h1, h2, h3, by rw [← unnotified_eq (inv_exec h2)]; exact h4, ?_⟩
      intro j hw hseen
      have hr := hi.ok.knows.seen j t hw hseen
      apply Decidable.byContradiction
      intro hj
      rw [h1] at hw hr
      have := rank_beyond hw (by omega)
      omega
  · split at hs <;> simp at hs

/-- Such a notification. -/
example : ∃ tr s s', Exec step (init 2) tr s ∧ s.base.ths[1]? = some (.nLoad false) ∧ step s (1, .load 0) = some (s', [.ev 1 (.notified 1)]) ∧
    WinCv.waiting s.base = 1 :=
  ⟨_, _, _, exec_of_run (ls := demo.take 7) rfl, rfl, rfl, by decide⟩

/-- **C106.**  A notification by a thread that knows of all changes of the count is skipped exactly if every waiting thread has been notified. -/
theorem C106_informed {n : Nat} {tr es : List Ev} {s s' : St} {t : Nat} {all : Bool} {a : Act} (h : Exec step (init n) tr s)
    (ht : s.base.ths[t]? = some (.nLoad all)) (hk : ∀ i, IsWrite tr i → Seen tr i t) (hs : step s (t, a) = some (s', es)) :
    Ev.ev t (.notified t) ∈ es ↔ WinCv.unnotified (plain tr) s.base = 0 := by
  have hi := inv_exec h
  unfold step at hs
  simp only [ht] at hs
  split at hs
  · cases hs
  · next i =>
    split at hs
    · cases hs
    next v hv =>
    split at hs
    rotate_left
    · cases hs
    next hle =>
    -- the newest value
    have hnew : s.know.hist.length ≤ s.know.of t + 1 := by
      rw [hi.ok.knows.len]
      obtain ⟨tr₁, tr₂, s₁, h1, h2, h3, h4, h5⟩ := had h i v hv
      by_cases h0 : nw tr = 0
      · omega
      · obtain ⟨a, e, b, he, hw, hb⟩ : ∃ a e b, tr = a ++ e :: b ∧ (∃ u v, e = Ev.wrote u v) ∧ nw b = 0 := by
          clear hk hi h ht h1 h2 h3 h4 h5 hv hle hs
          induction tr with
          | nil => exact absurd rfl h0
          | cons x tr ih =>
            by_cases hz : nw tr = 0
            · refine ⟨[], x, tr, rfl, ?_, hz⟩
              cases x with
              | wrote u v => exact ⟨u, v, rfl⟩
              | _ => exact absurd (by simpa [nw] using hz) h0
            · obtain ⟨a, e, b, he, hw, hb⟩ := ih hz
              exact ⟨x :: a, e, b, by rw [he]; rfl, hw, hb⟩
        obtain ⟨u, w, rfl⟩ := hw
        have hget : tr[a.length]? = some (.wrote u w) := by rw [he]; simp
        have h6 := hi.ok.knows.seen a.length t ⟨u, w, hget⟩ (hk _ ⟨u, w, hget⟩)
        have h7 : rank tr a.length = nw tr := by
          have := nw_append (tr.take (a.length + 1)) (tr.drop (a.length + 1))
          rw [List.take_append_drop] at this
          have hd : tr.drop (a.length + 1) = b := by
            rw [he, show a ++ Ev.wrote u w :: b = (a ++ [.wrote u w]) ++ b by simp]
            rw [List.drop_left' (by simp)]
          rw [hd, hb] at this
          unfold rank; omega
        omega
    have h2 := (List.getElem?_eq_some_iff.mp hv).1
    have h3 : i = s.know.hist.length - 1 := by omega
    have h4 := hi.last
    rw [List.getLast?_eq_getElem?, ← h3, hv] at h4
    have hvt : v = s.base.total := by cases h4; rfl
    rw [← unnotified_eq hi, ← hvt]
    simp only [loaded] at hs
    by_cases hv0 : 0 < v
    · simp only [if_pos hv0] at hs
      cases hs
      constructor
      · intro he; simp [events, writes] at he
      · intro h0; omega
    · simp only [if_neg hv0] at hs
      cases hs
      exact ⟨fun _ => by omega, fun _ => by simp [events]⟩
  · split at hs <;> simp at hs

/-- **C106.**  A thread who has locked the user's lock after a waiter unlocked it in its wait knows of the waiter: the waiter has been registered in this call, and its
registration happens before what the thread does next. -/
theorem C106_user_lock {n : Nat} {tr a b : List Ev} {s : St} {w t : Nat} (h : Exec step (init n) tr s) (he : tr = a ++ .ev w (.unlocked w) :: b)
    (hk : Ev.acq t .user ∈ b) : ∃ a₁ v a₂, a = a₁ ++ .wrote w v :: a₂ ∧ (∀ k, Ev.ev w (.called w k) ∉ a₂) ∧ Seen tr a₁.length t := by
  obtain ⟨⟨a₁, v, a₂, rfl, h2⟩, b', rfl⟩ := (order_exec h).done w a b he
  refine ⟨a₁, v, a₂, rfl, h2, ?_⟩
  have hk : Ev.acq t .user ∈ b' := by simpa using hk
  obtain ⟨c, d, rfl⟩ := List.append_of_mem hk
  subst he
  have hw : (a₁ ++ Ev.wrote w v :: a₂ ++ .ev w (.unlocked w) :: .rel w .user :: (c ++ .acq t .user :: d))[a₁.length]? = some (.wrote w v) := by simp
  have hr : (a₁ ++ Ev.wrote w v :: a₂ ++ .ev w (.unlocked w) :: .rel w .user :: (c ++ .acq t .user :: d))[(a₁ ++ Ev.wrote w v :: a₂).length + 1]? =
      some (.rel w .user) := by rw [List.getElem?_append_right (by omega)]; simp
  have hq : (a₁ ++ Ev.wrote w v :: a₂ ++ .ev w (.unlocked w) :: .rel w .user :: (c ++ .acq t .user :: d))[(a₁ ++ Ev.wrote w v :: a₂).length + 2 + c.length]? =
      some (.acq t .user) := by
    rw [List.getElem?_append_right (by omega), show (a₁ ++ Ev.wrote w v :: a₂).length + 2 + c.length - (a₁ ++ Ev.wrote w v :: a₂).length = c.length + 1 + 1 by omega]
    simp
  exact ⟨_, _, hq, rfl, .tail (.tail (.refl _) ⟨by simp; omega, _, _, hw, hr, .inl rfl⟩) ⟨by omega, _, _, hr, hq, .inr (.inl ⟨w, t, .user, rfl, rfl⟩)⟩⟩

example : ∃ tr a b s, Exec step (init 2) tr s ∧ tr = a ++ .ev 0 (.unlocked 0) :: b ∧ Ev.acq 1 .user ∈ b :=
  ⟨_, demoEvents.take 6, demoEvents.drop 7, _, exec_of_run (ls := demo) rfl, rfl, by decide⟩

/-- A notifier who knows of the waiter as `C106_informed` requires. -/
example : ∃ tr s, Exec step (init 2) tr s ∧ s.base.ths[1]? = some (.nLoad false) ∧ (∃ i, IsWrite tr i) ∧ (∀ i, IsWrite tr i → Seen tr i 1) ∧
    WinCv.unnotified (plain tr) s.base = 1 := by
  have hrun : runFrom step (init 2) demo = some ((runFrom step (init 2) demo).get rfl |>.1, demoEvents) := rfl
  refine ⟨_, _, exec_of_run hrun, rfl, ⟨3, 0, 1, rfl⟩, ?_, by decide⟩
  rintro i ⟨u, v, h⟩
  have hlt : i < 13 := (List.getElem?_eq_some_iff.mp h).1
  have hw : ∀ j : Fin 13, (match demoEvents[j.1]? with | some (.wrote _ _) => true | _ => false) = true → j.1 = 3 := by decide
  have : i = 3 := hw ⟨i, hlt⟩ (by simp only at h; rw [h])
  subst this
  obtain ⟨a₁, v, a₂, h1, _, h2⟩ := C106_user_lock (w := 0) (t := 1) (exec_of_run hrun) (a := demoEvents.take 6) (b := demoEvents.drop 7) rfl (by decide)
  have : a₁.length = 3 := by
    have hl := congrArg List.length h1
    have hlt : a₁.length < 6 := by simp [demoEvents] at hl; omega
    have hg : (demoEvents.take 6)[a₁.length]? = some (.wrote 0 v) := by rw [h1]; simp
    have hw : ∀ j : Fin 6, (match (demoEvents.take 6)[j.1]? with | some (.wrote _ _) => true | _ => false) = true → j.1 = 3 := by decide
    exact hw ⟨_, hlt⟩ (by simp only; rw [hg])
  rwa [this] at h2

/-- **C106.**  The relaxed loads inside of the critical section: `notify_one` grants one unit if some thread waits without having been notified and none
otherwise; `notify_all` grants as many units as there are such threads. -/
theorem C106_grants {n : Nat} {tr es : List Ev} {s s' : St} {t m : Nat} {all : Bool} {a : Act} (h : Exec step (init n) tr s)
    (hs : step s (t, a) = some (s', es)) (he : Ev.ev t (.decided t all m) ∈ es) :
    m = if all then WinCv.unnotified (plain tr) s.base else min 1 (WinCv.unnotified (plain tr) s.base) := by
  have hi := inv_exec h
  rw [← unnotified_eq hi]
  have hso := step_soundO hi hs
  cases hso with
  | sync => simp at he
  | @op pc b es k ht hst hk =>
    have hm : WinCv.Ev.decided t all m ∈ es := by
      have : WinCv.Ev.decided t all m ∈ plain (events t pc s.base b es) := List.mem_filterMap.mpr ⟨_, he, rfl⟩
      rwa [plain_events] at this
    cases hst with
    | goto h hg => cases hg <;> simp at hm
    | exit h hg => cases hg <;> simp at hm
    | decide0 h h0 =>
      simp only [List.mem_singleton, WinCv.Ev.decided.injEq] at hm
      obtain ⟨_, rfl, rfl⟩ := hm
      rw [h0]; cases all <;> rfl
    | decide h h0 hc =>
      simp only [List.mem_singleton, WinCv.Ev.decided.injEq] at hm
      obtain ⟨_, rfl, rfl⟩ := hm
      rw [hc]
      cases all
      · simp only [Bool.false_eq_true, if_false]; omega
      · rfl
    | _ => simp at hm

/-- A notification that is carried out. -/
example : ∃ tr s s' es, Exec step (init 2) tr s ∧ step s (1, .load 1) = some (s', es) ∧ Ev.ev 1 (.decided 1 false 1) ∈ es :=
  ⟨_, _, _, _, exec_of_run (ls := demo ++ [(1, .load 1), (1, .op .go)]) rfl, rfl, by decide⟩

/-- **C106.**  The loads inside of the critical section are never held up: the newest value can be read, and no other. -/
theorem C106_inside {n : Nat} {tr : List Ev} {s : St} {t i : Nat} {all : Bool} (h : Exec step (init n) tr s)
    (ht : s.base.ths[t]? = some (.nCheck all)) : (step s (t, .load i)).isSome = true ↔ i + 1 = s.know.hist.length := by
  have hi := inv_exec h
  have h1 := hi.ok.newest.own t (hi.locks.own t _ ht rfl)
  unfold step
  simp only [ht]
  constructor
  · intro hs
    split at hs
    · cases hs
    next v hv =>
    have := (List.getElem?_eq_some_iff.mp hv).1
    split at hs
    · omega
    · cases hs
  · intro hii
    have hlt : i < s.know.hist.length := by omega
    rw [List.getElem?_eq_getElem hlt]
    simp only [loaded]
    rw [if_pos (by omega)]
    by_cases h0 : s.know.hist[i] = 0
    · simp [h0]
    · simp [h0]

/-- **C106.**  A unit that is granted and not consumed lets some waiting thread, or the owner of the internal mutex, take a step (with at most 2^30 threads). -/
theorem C106_no_lost_wakeup {n : Nat} {tr : List Ev} {s : St} (h : Exec step (init n) tr s) (hn : n ≤ 1073741824)
    (ho : WinCv.allConsumed (plain tr) < WinCv.allGranted (plain tr)) :
    ∃ (t : Nat) (pc : WinCv.PC) (a : Act) (s' : St) (es : List Ev), s.base.ths[t]? = some pc ∧
      (pc.waiting = true ∨ s.base.owner = some t) ∧ a ≠ .sync t ∧ step s (t, a) = some (s', es) := by
  have hi := inv_exec h
  obtain ⟨t, pc, s', es, ht, hw, hs⟩ := WinCv.outstanding_of hi.locks hi.counts hi.ring hi.grants (by rw [hi.threads]; exact hn) ho
  by_cases hd : direct pc = true
  · exact ⟨t, pc, .op .go, _, _, ht, hw, by simp, by simp only [step, ht, if_pos hd, hs]; rfl⟩
  · cases pc with
    | nCheck all =>
      have := (C106_inside (i := s.know.hist.length - 1) h ht).mpr (by have := hi.ok.newest.hist; omega)
      obtain ⟨⟨s1, es1⟩, h1⟩ := Option.isSome_iff_exists.mp this
      exact ⟨t, _, _, s1, es1, ht, hw, by simp, h1⟩
    | nLoad all =>
      exfalso
      rcases hw with hw | hw
      · cases hw
      · obtain ⟨pc, h1, h2⟩ := hi.locks.owned t hw
        rw [ht] at h1; cases h1; cases h2
    | _ => exact absurd rfl hd

/-- **C106.**  In every state `m_total_waiter_count` is the number of threads that wait and have not been notified. -/
theorem C106_total_count {n : Nat} {tr : List Ev} {s : St} (h : Exec step (init n) tr s) :
    s.base.total = WinCv.unnotified (plain tr) s.base ∧ s.know.hist.getLast? = some s.base.total :=
  ⟨unnotified_eq (inv_exec h), (inv_exec h).last⟩

/-- A unit that is granted and not consumed; the waiter can take it. -/
example : ∃ tr s, Exec step (init 2) tr s ∧ WinCv.allConsumed (plain tr) < WinCv.allGranted (plain tr) ∧ (step s (0, .op .go)).isSome = true :=
  ⟨_, _, exec_of_run (ls := demo ++ [(1, .load 1), (1, .op .go), (1, .load 1), (1, .op .go), (1, .op .go)]) rfl, by decide, by decide⟩

end Verif.WinCvOrder
