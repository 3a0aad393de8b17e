import Verif.Proof.WinMutex

/-!
# Properties of the Windows `mutex`/`timed_mutex` (C09, C10, C11, C12, C13)

`holds tr t` and `pending tr` (in `Verif.Spec.WinMutex`) look only at the trace.  The word has 30 bits for the count of
waiters, so the theorems about the count are for fewer than 2^30 threads.
-/

namespace Verif.WinMutex

/-- C09.  Two threads never own the mutex at the same time. -/
theorem C09_win_mutual_exclusion (n : Nat) (hn : n < 2 ^ 30) (tr : List Ev) (s : St) (h : Exec step (init n) tr s)
    (i j : Nat) (hi : holds tr i = true) (hj : holds tr j = true) : i = j := by
  have I := inv_exec hn h
  have A := agree_exec h
  obtain ⟨a, ha, oa⟩ := A.get hi
  obtain ⟨b, hb, ob⟩ := A.get hj
  by_cases hij : i = j
  · exact hij
  · have := countP_two (p := Th.owns) hij ha hb oa ob
    have := I.lock
    have := L_lt s.word.val
    omega

/-- C10.  If nobody owns the mutex and somebody sleeps in `lock()`, the event is signalled or a thread that is not asleep
is about to signal it or has just been released by it. -/
theorem C10_no_lost_wakeup (n : Nat) (hn : n < 2 ^ 30) (tr : List Ev) (s : St) (h : Exec step (init n) tr s)
    (hfree : ∀ t, holds tr t = false) (i : Nat) (th : Th) (hi : s.ths[i]? = some th) (hs : th.sleeping = true) :
    s.ev = true ∨ ∃ (j : Nat) (x : Th), s.ths[j]? = some x ∧
      (x.pc = .unlBts ∨ x.pc = .unlSet ∨ ∃ k old, x.pc = .clr k old) := by
  have I := inv_exec hn h
  have A := agree_exec h
  have hl : L s.word.val = 0 := by rw [I.lock]; exact A.none hfree
  have hb : th.blocked = true := by
    obtain ⟨pc, v⟩ := th
    cases pc <;> first | rfl | cases hs
  have hc : 0 < C s.word.val := by
    rw [I.cnt]
    exact countP_pos_of_get hi hb
  have hflag := I.flag
  have : s.ev = true ∨ 0 < s.ths.countP Th.setting ∨ 0 < s.ths.countP Th.clearing ∨ 0 < s.ths.countP Th.flagging := by
    cases he : s.ev
    · rw [he, b2n_false] at hflag
      have := I.wake hl hc
      right
      omega
    · exact Or.inl rfl
  rcases this with h | h | h | h
  · exact Or.inl h
  · obtain ⟨j, ⟨pc, v⟩, hj, hp⟩ := exists_of_countP_pos h
    refine Or.inr ⟨j, _, hj, Or.inr (Or.inl ?_)⟩
    cases pc <;> first | rfl | cases hp
  · obtain ⟨j, ⟨pc, v⟩, hj, hp⟩ := exists_of_countP_pos h
    refine Or.inr ⟨j, _, hj, Or.inr (Or.inr ?_)⟩
    cases pc <;> first | exact ⟨_, _, rfl⟩ | cases hp
  · obtain ⟨j, ⟨pc, v⟩, hj, hp⟩ := exists_of_countP_pos h
    refine Or.inr ⟨j, _, hj, Or.inl ?_⟩
    cases pc <;> first | rfl | cases hp

/-- The mutex can be acquired by steps of threads already inside its functions. -/
def CanAcquire (s : St) : Prop :=
  ∃ ls s' es, (∀ l ∈ ls, l.2 = Act.go) ∧ runFrom step s ls = some (s', es) ∧ ∃ j k p, Ev.acquired j k p ∈ es

theorem canAcquire_step {s s' : St} {es : List Ev} {j : Nat} (h : step s (j, .go) = some (s', es))
    (hc : CanAcquire s') : CanAcquire s := by
  obtain ⟨ls, s'', es', h1, h2, jj, k, p, h3⟩ := hc
  refine ⟨(j, .go) :: ls, s'', es ++ es', ?_, ?_, jj, k, p, List.mem_append_right _ h3⟩
  · intro l hl
    rcases List.mem_cons.mp hl with rfl | hl
    · rfl
    · exact h1 l hl
  · simp only [runFrom, h, h2]

theorem canAcquire_clr {s : St} (hl : L s.word.val = 0) {j : Nat} {k : Kind} {old : UInt32} {v : View}
    (hj : s.ths[j]? = some ⟨.clr k old, v⟩) : CanAcquire s := by
  have key : ∀ (s : St), L s.word.val = 0 → s.ths[j]? = some ⟨.clr k s.word.val, v⟩ → CanAcquire s := by
    intro s hl hj
    have hnl := isLocked_false.mpr hl
    have hst : step s (j, .go) = some ({ s with
        word := (s.word.rmw laxOrder v (clrNew s.word.val)).1,
        ths := s.ths.set j ⟨.owner, (s.word.rmw laxOrder v (clrNew s.word.val)).2⟩ }, [.acquired j k .woken]) := by
      simp only [step, hj, hnl, if_true, Bool.false_eq_true, if_false]
    exact ⟨[(j, .go)], _, [.acquired j k .woken], by simp, by simp only [runFrom, hst]; rfl, j, k, .woken, by simp⟩
  by_cases h : s.word.val = old
  · subst h; exact key s hl hj
  · refine canAcquire_step (j := j) (s' := { s with ths := s.ths.set j ⟨.clr k s.word.val, v⟩ }) (es := []) ?_ ?_
    · simp only [step, hj, if_neg h]
    · exact key _ hl (get_set_self hj)

theorem canAcquire_ev {s : St} (hl : L s.word.val = 0) (hev : s.ev = true) {j : Nat} {k : Kind} {old : UInt32} {v : View}
    (hj : s.ths[j]? = some ⟨.evWait k old, v⟩) : CanAcquire s := by
  refine canAcquire_step (j := j)
    (s' := { s with ev := false, ths := s.ths.set j ⟨.clr k (clrStart old), v ++ s.evMsg⟩ })
    (es := [.consumed j]) ?_ ?_
  · simp only [step, hj, hev, if_true]
  · exact canAcquire_clr (s := { s with ev := false, ths := s.ths.set j ⟨.clr k (clrStart old), v ++ s.evMsg⟩ })
      hl (get_set_self hj)

theorem canAcquire_set {s : St} (hl : L s.word.val = 0) {i j : Nat} {k : Kind} {old : UInt32} {v u : View}
    (hj : s.ths[j]? = some ⟨.evWait k old, v⟩) (hi : s.ths[i]? = some ⟨.unlSet, u⟩) : CanAcquire s := by
  refine canAcquire_step (j := i)
    (s' := { s with ev := true, evMsg := s.evMsg ++ u, ths := s.ths.set i ⟨.idle, u⟩ })
    (es := [.signalled i]) ?_ ?_
  · simp only [step, hi]
  · have hne : i ≠ j := by rintro rfl; rw [hi] at hj; cases hj
    exact canAcquire_ev (s := { s with ev := true, evMsg := s.evMsg ++ u, ths := s.ths.set i ⟨.idle, u⟩ })
      (v := v) (old := old) (k := k) (j := j) hl rfl (by simp only [get_set_ne hne]; exact hj)

theorem canAcquire_flag {tr : List Ev} {s : St} (I : Inv tr s) (hl : L s.word.val = 0) (hf : F s.word.val = 1) {j : Nat}
    {k : Kind} {old : UInt32} {v : View} (hj : s.ths[j]? = some ⟨.evWait k old, v⟩) : CanAcquire s := by
  have hflag := I.flag
  cases he : s.ev
  · rw [he, b2n_false] at hflag
    by_cases hs : 0 < s.ths.countP Th.setting
    · obtain ⟨i, ⟨pc, u⟩, hi, hp⟩ := exists_of_countP_pos hs
      cases pc with
      | unlSet => exact canAcquire_set hl hj hi
      | _ => cases hp
    · have hs : 0 < s.ths.countP Th.clearing := by omega
      obtain ⟨i, ⟨pc, u⟩, hi, hp⟩ := exists_of_countP_pos hs
      cases pc with
      | clr k old => exact canAcquire_clr hl hi
      | _ => cases hp
  · exact canAcquire_ev hl he hj

/-- C10, progress form: if nobody owns the mutex and somebody sleeps in it, then threads that are already inside
the functions of the mutex can by themselves bring one of them to acquire it. -/
theorem C10_progress (n : Nat) (hn : n < 2 ^ 30) (tr : List Ev) (s : St) (h : Exec step (init n) tr s)
    (hfree : ∀ t, holds tr t = false) (i : Nat) (th : Th) (hi : s.ths[i]? = some th) (hs : th.sleeping = true) :
    CanAcquire s := by
  have I := inv_exec hn h
  have A := agree_exec h
  have hl : L s.word.val = 0 := by rw [I.lock]; exact A.none hfree
  obtain ⟨pc, v⟩ := th
  cases pc with
  | evWait k old =>
    have hc : 0 < C s.word.val := by
      rw [I.cnt]
      exact countP_pos_of_get hi rfl
    rcases I.wake hl hc with hf | hf
    · exact canAcquire_flag I hl hf hi
    · obtain ⟨j, ⟨pc, u⟩, hj, hp⟩ := exists_of_countP_pos hf
      cases pc with
      | unlBts =>
        have hne : j ≠ i := by rintro rfl; rw [hj] at hi; cases hi
        have hstep : step s (j, .go) = some ({ s with
            word := (s.word.rmw laxOrder u (s.word.val ||| eventFlag)).1,
            ths := s.ths.set j ⟨if isFlagged s.word.val then .idle else .unlSet,
              (s.word.rmw laxOrder u (s.word.val ||| eventFlag)).2⟩ }, []) := by
          simp only [step, hj]
        obtain ⟨o1, o2, o3⟩ := orFlag s.word.val
        refine canAcquire_step hstep (canAcquire_flag (step_inv I hstep) (j := i) (k := k) (old := old) (v := v) ?_ ?_ ?_)
        · show L (s.word.val ||| eventFlag) = 0
          rw [o1, hl]
        · show F (s.word.val ||| eventFlag) = 1
          exact o2
        · simp only [get_set_ne hne]; exact hi
      | _ => cases hp
  | _ => cases hs

/-- C11.  Signals and consumptions of the event alternate: it is never signalled while already signalled. -/
theorem C11_event_not_set_twice (n : Nat) (hn : n < 2 ^ 30) (tr : List Ev) (s : St) (h : Exec step (init n) tr s) :
    (pending tr = 0 ∧ s.ev = false) ∨ (pending tr = 1 ∧ s.ev = true) := by
  have := (inv_exec hn h).pend
  cases he : s.ev
  · left; rw [he] at this; exact ⟨this, rfl⟩
  · right; rw [he] at this; exact ⟨this, rfl⟩

/-- C11, second half: at most one thread is between being released by the event and updating the word, the event is then
not signalled, and the event bit of the word is set exactly while the event is signalled, about to be signalled or just
consumed. -/
theorem C11_one_thread_released (n : Nat) (hn : n < 2 ^ 30) (tr : List Ev) (s : St) (h : Exec step (init n) tr s) :
    (∀ (i j : Nat) (a b : Th), s.ths[i]? = some a → s.ths[j]? = some b →
      a.clearing = true → b.clearing = true → i = j) ∧
    (∀ (i : Nat) (a : Th), s.ths[i]? = some a → a.clearing = true → s.ev = false ∧ isFlagged s.word.val = true) ∧
    (s.ev = true → isFlagged s.word.val = true) := by
  have I := inv_exec hn h
  have hf := I.flag
  have := F_lt s.word.val
  refine ⟨?_, ?_, ?_⟩
  · intro i j a b ha hb ca cb
    by_cases hij : i = j
    · exact hij
    · have := countP_two (p := Th.clearing) hij ha hb ca cb
      omega
  · intro i a ha ca
    have := countP_pos_of_get (p := Th.clearing) ha ca
    have hev : s.ev = false := by
      cases he : s.ev
      · rfl
      · rw [he, b2n_true] at hf; omega
    refine ⟨hev, isFlagged_iff.mpr ?_⟩
    omega
  · intro he
    rw [he, b2n_true] at hf
    exact isFlagged_iff.mpr (by omega)

/-- C12.  A step by which a call returns false or throws leaves ownership, the lock bit, the event bit and the event as
they were, its thread owns nothing and is no longer registered, and the count of the word is the number of threads that
are still registered. -/
theorem C12_failure_leaves_no_trace (n : Nat) (hn : n < 2 ^ 30) (tr : List Ev) (s s' : St) (h : Exec step (init n) tr s)
    (t : Nat) (a : Act) (es : List Ev) (k : Kind) (hs : step s (t, a) = some (s', es))
    (he : Ev.failed t k ∈ es ∨ Ev.threw t k ∈ es) :
    holds tr t = false ∧ (∀ u, holds (tr ++ es) u = holds tr u) ∧ s'.ev = s.ev ∧
    isLocked s'.word.val = isLocked s.word.val ∧ isFlagged s'.word.val = isFlagged s.word.val ∧
    countOf s'.word.val = s'.ths.countP Th.blocked ∧ (∃ th, s'.ths[t]? = some th ∧ th.pc = .idle) := by
  have I := inv_exec hn h
  have I' := step_inv I hs
  have A := agree_exec h
  have hcnt : countOf s'.word.val = s'.ths.countP Th.blocked := by rw [countOf_eq]; exact I'.cnt
  have hA := A t
  clear I'
  unfold step at hs
  simp only at hs
  split at hs
  · cases hs
  next th hth =>
  rw [hth] at hA
  obtain ⟨pc, v⟩ := th
  simp only at hs hA
  split at hs
  · cases hs; simp at he
  · cases hs; simp at he
  · cases hs; simp at he
  · cases hs; simp at he
  · next k' =>
    split at hs
    · next hl =>
      simp only [Option.some.injEq, Prod.mk.injEq] at hs
      obtain ⟨rfl, rfl⟩ := hs
      obtain ⟨o1, o2, o3⟩ := orLock s.word.val
      have hl' : isLocked (s.word.val ||| lockFlag) = isLocked s.word.val := by
        rw [hl, isLocked_iff]; exact o1
      have hf' : isFlagged (s.word.val ||| lockFlag) = isFlagged s.word.val := by
        rw [Bool.eq_iff_iff, isFlagged_iff, isFlagged_iff, o2]
      refine ⟨hA, ?_, rfl, hl', hf', hcnt, ?_⟩
      · intro u; rw [holds_append]; cases k' <;> rfl
      · refine ⟨_, get_set_self hth, ?_⟩
        cases k' with
        | tryOnly => rfl
        | lock => simp at he
        | timed => simp at he
    · simp only [Option.some.injEq, Prod.mk.injEq] at hs
      obtain ⟨rfl, rfl⟩ := hs
      simp at he
  · cases hs; simp at he
  · cases hs; simp at he
  · cases hs
    exact ⟨hA, fun u => by rw [holds_append]; rfl, rfl, rfl, rfl, hcnt, _, get_set_self hth, rfl⟩
  · split at hs
    · split at hs <;> (simp only [Option.some.injEq, Prod.mk.injEq] at hs; obtain ⟨rfl, rfl⟩ := hs; simp at he)
    · cases hs; simp at he
  · cases hs; simp at he
  · split at hs
    · cases hs; simp at he
    · cases hs
  · cases hs; simp at he
  · cases hs; simp at he
  · split at hs
    · split at hs <;> (simp only [Option.some.injEq, Prod.mk.injEq] at hs; obtain ⟨rfl, rfl⟩ := hs; simp at he)
    · cases hs; simp at he
  · cases hs; simp at he
  · next k' thr =>
    simp only [Option.some.injEq, Prod.mk.injEq] at hs
    obtain ⟨rfl, rfl⟩ := hs
    have hpos := countP_pos_of_get (p := Th.blocked) hth rfl
    obtain ⟨o1, o2, o3⟩ := subOne (w := s.word.val) (by rw [I.cnt]; omega)
    have hl' : isLocked (s.word.val - 1) = isLocked s.word.val := by
      rw [Bool.eq_iff_iff, isLocked_iff, isLocked_iff, o1]
    have hf' : isFlagged (s.word.val - 1) = isFlagged s.word.val := by
      rw [Bool.eq_iff_iff, isFlagged_iff, isFlagged_iff, o2]
    refine ⟨hA, ?_, rfl, hl', hf', hcnt, _, get_set_self hth, rfl⟩
    intro u; rw [holds_append]; cases thr <;> rfl
  · simp only [Option.some.injEq, Prod.mk.injEq] at hs
    obtain ⟨rfl, rfl⟩ := hs
    simp at he
  · simp only [Option.some.injEq, Prod.mk.injEq] at hs
    obtain ⟨rfl, rfl⟩ := hs
    simp at he
  · simp only [Option.some.injEq, Prod.mk.injEq] at hs
    obtain ⟨rfl, rfl⟩ := hs
    simp at he
  · cases hs; simp at he
  · cases hs

/-- C12, consequence: when no call is in progress and nobody owns the mutex, the word is as if nobody had ever used it,
apart from an unconsumed signal of the event, which the word records. -/
theorem C12_quiescent (n : Nat) (hn : n < 2 ^ 30) (tr : List Ev) (s : St) (h : Exec step (init n) tr s)
    (hidle : ∀ (i : Nat) (th : Th), s.ths[i]? = some th → th.pc = .idle) :
    (s.word.val = 0 ∧ s.ev = false) ∨ (s.word.val = eventFlag ∧ s.ev = true) := by
  have I := inv_exec hn h
  have z : ∀ (p : PC → Bool), p .idle = false → s.ths.countP (fun th => p th.pc) = 0 := by
    intro p hp
    apply countP_eq_zero_of_forall
    intro i a ha
    rw [hidle i a ha, hp]
  have hl : L s.word.val = 0 := by rw [I.lock]; exact z PC.owns rfl
  have hc : C s.word.val = 0 := by rw [I.cnt]; exact z PC.blocked rfl
  have hf : F s.word.val = b2n s.ev := by
    rw [I.flag]
    have h1 : s.ths.countP Th.setting = 0 := z PC.setting rfl
    have h2 : s.ths.countP Th.clearing = 0 := z PC.clearing rfl
    rw [h1, h2]; rfl
  have o := orFlag 0
  rw [L_zero, C_zero] at o
  have e0 : (0 : UInt32) ||| eventFlag = eventFlag := by decide
  rw [e0] at o
  cases he : s.ev
  · left
    refine ⟨word_eq ?_ ?_ ?_, rfl⟩
    · rw [hl, L_zero]
    · rw [hf, he, F_zero]; rfl
    · rw [hc, C_zero]
  · right
    refine ⟨word_eq ?_ ?_ ?_, rfl⟩
    · rw [hl, o.1]
    · rw [hf, he, o.2.1]; rfl
    · rw [hc, o.2.2]

/-- C13, the property refuted: a thread acquires the mutex by the relaxed compare-exchange of
`mark_waiting_and_try_lock` (136) and has not observed what the previous owner did in its critical section. -/
def race : List (Nat × Act) :=
  [(0, .call .lock), (0, .go), (1, .call .lock), (1, .go), (1, .go), (0, .doWork), (0, .callUnlock), (0, .go),
   (1, .go), (1, .go)]

theorem C13_refuted : ∃ tr s, Exec step (init 2) tr s ∧ holds tr 1 = true ∧
    (∃ pre post, tr = pre ++ Ev.released 0 :: post ∧ Ev.work 0 0 ∈ pre) ∧
    ∃ th, s.ths[1]? = some th ∧ 0 ∉ th.view :=
  ⟨_, _, exec_of_run (ls := race) rfl, by decide,
    ⟨[.called 0 .lock, .acquired 0 .lock .fast, .called 1 .lock, .work 0 0], [.acquired 1 .lock .marked], rfl, by decide⟩,
    _, rfl, by decide⟩

/-- C13, the second way in which it fails: the thread released by the event acquires the mutex by the relaxed
compare-exchange of line 150 after a third thread owned and released it in between. -/
def race' : List (Nat × Act) :=
  [(0, .call .lock), (0, .go), (1, .call .lock), (1, .go), (1, .go), (1, .go), (0, .callUnlock), (0, .go), (0, .go), (0, .go),
   (1, .go), (2, .call .tryOnly), (2, .go), (2, .doWork), (2, .callUnlock), (2, .go), (1, .go)]

theorem C13_refuted_woken : ∃ tr s, Exec step (init 3) tr s ∧ holds tr 1 = true ∧
    (∃ pre post, tr = pre ++ Ev.released 2 :: post ∧ Ev.work 2 0 ∈ pre) ∧
    ∃ th, s.ths[1]? = some th ∧ 0 ∉ th.view :=
  ⟨_, _, exec_of_run (ls := race') rfl, by decide,
    ⟨[.called 0 .lock, .acquired 0 .lock .fast, .called 1 .lock, .released 0, .signalled 0, .consumed 1, .called 2 .tryOnly,
      .acquired 2 .tryOnly .fast, .work 2 0], [.acquired 1 .lock .woken], rfl, by decide⟩,
    _, rfl, by decide⟩

/-- C13, what holds: a thread that acquires the mutex by its first attempt (97; this is every successful `try_lock` and
every uncontended `lock`) has observed everything done before any earlier release.  Missing: acquisitions of contended
mutexes, for which the property is false. -/
theorem C13_happens_before_partial (n : Nat) (tr : List Ev) (s s' : St) (h : Exec step (init n) tr s)
    (t : Nat) (a : Act) (k : Kind) (hs : step s (t, a) = some (s', [.acquired t k .fast]))
    (j id : Nat) (pre post : List Ev) (htr : tr = pre ++ Ev.released j :: post) (hw : Ev.work j id ∈ pre) :
    ∃ th, s'.ths[t]? = some th ∧ id ∈ th.view := by
  have V := vinv_exec h
  have hm : id ∈ s.word.msg := V.msg id ⟨pre, post, _, j, _, htr, rfl, hw, rfl⟩
  unfold step at hs
  simp only at hs
  split at hs
  · cases hs
  next th hth =>
  obtain ⟨pc, v⟩ := th
  simp only at hs
  split at hs
  any_goals (simp only [Option.some.injEq, Prod.mk.injEq] at hs; have h2 := hs.2; simp at h2; done)
  · next k' =>
    split at hs
    · simp only [Option.some.injEq, Prod.mk.injEq] at hs
      exact absurd hs.2 (by split <;> simp)
    · simp only [Option.some.injEq, Prod.mk.injEq] at hs
      obtain ⟨rfl, _⟩ := hs
      refine ⟨_, get_set_self hth, ?_⟩
      show id ∈ v ++ s.word.msg
      exact List.mem_append_right _ hm
  · split at hs
    · split at hs <;> (simp only [Option.some.injEq, Prod.mk.injEq] at hs; exact absurd hs.2 (by simp))
    · simp only [Option.some.injEq, Prod.mk.injEq] at hs; exact absurd hs.2 (by simp)
  · split at hs
    · simp only [Option.some.injEq, Prod.mk.injEq] at hs; exact absurd hs.2 (by simp)
    · cases hs
  · split at hs
    · split at hs <;> (simp only [Option.some.injEq, Prod.mk.injEq] at hs; exact absurd hs.2 (by simp))
    · simp only [Option.some.injEq, Prod.mk.injEq] at hs; exact absurd hs.2 (by simp)
  · simp only [Option.some.injEq, Prod.mk.injEq] at hs
    exact absurd hs.2 (by split <;> simp)
  · cases hs

/-! ## The hypotheses are met by real runs -/

/-- Thread 0 owns the mutex, threads 1 (lock) and 2 (timed) sleep, thread 0 unlocks: nobody owns the mutex, two threads
sleep, the event is about to be flagged. -/
def demo : List (Nat × Act) :=
  [(0, .call .lock), (0, .go), (0, .doWork), (1, .call .lock), (1, .go), (1, .go), (1, .go), (2, .call .timed), (2, .go),
   (2, .go), (2, .go), (0, .callUnlock), (0, .go)]

example : ∃ tr s, Exec step (init 3) tr s ∧ (∀ t, holds tr t = false) ∧
    ∃ th, s.ths[1]? = some th ∧ th.sleeping = true :=
  ⟨_, _, exec_of_run (ls := demo) rfl, by
    intro t
    by_cases h : 0 = t <;> simp [holds, holdsUpd, h], _, rfl, rfl⟩

/-- ... then the timed lock times out and returns false, thread 1 is woken and acquires; the end is quiescent. -/
example : (runFrom step (init 3) (demo ++
      [(2, .timeout), (2, .go), (0, .go), (0, .go), (1, .go), (1, .fail 7), (1, .go), (1, .go), (1, .callUnlock), (1, .go)])).map
      (fun r => (r.2.drop 5, r.1.word.val, r.1.ev)) =
    some ([.released 0, .failed 2 .timed, .signalled 0, .consumed 1, .acquired 1 .lock .woken, .released 1], 0, false) := by
  decide

/-- A lock acquired at the first attempt after a release. -/
example : (runFrom step (init 3) (demo ++ [(0, .go), (0, .go), (0, .call .tryOnly), (0, .go)])).map
      (fun r => (r.2.drop 7, holds r.2 0, r.1.ths[0]?.map Th.view)) =
    some ([.called 0 .tryOnly, .acquired 0 .tryOnly .fast], true, some [0, 0]) := by
  decide

/-- A quiescent state with an unconsumed signal: the only waiter timed out. -/
example : (runFrom step (init 2)
      [(0, .call .lock), (0, .go), (1, .call .timed), (1, .go), (1, .go), (1, .go), (0, .callUnlock), (0, .go), (1, .timeout),
       (1, .go), (0, .go), (0, .go)]).map (fun r => (r.1.word.val, r.1.ev, r.1.ths.map Th.pc)) =
    some (eventFlag, true, [.idle, .idle]) := by
  decide

end Verif.WinMutex
