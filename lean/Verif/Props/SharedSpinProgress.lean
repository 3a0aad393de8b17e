import Verif.Props.SharedSpinMutex

/-! C05, the part about blocking calls: `lock()` and `lock_shared()` never give up, and they can return as soon as the
mutex is free (has no exclusive owner). -/

namespace Verif.SharedSpin

/-- The thread is inside `lock()`. -/
def PC.inLock : PC → Bool
  | .lockSpin | .lockCas => true
  | _ => false

/-- The thread is inside `lock_shared()`. -/
def PC.inShared : PC → Bool
  | .sharedSpin | .sharedLoad | .sharedCas _ => true
  | _ => false

theorem step_other {s s' : St} {u t : Nat} {a : Act} {es : List Ev} (hs : step s (u, a) = some (s', es)) (hu : u ≠ t) :
    s'.ths[t]? = s.ths[t]? := by
  unfold step at hs
  simp only at hs
  split at hs
  · cases hs
  split at hs
  all_goals first
    | cases hs; done
    | (simp only [Option.some.injEq, Prod.mk.injEq] at hs; rw [← hs.1]; simp only; rw [get_set_ne hu])
    | (split at hs <;> simp only [Option.some.injEq, Prod.mk.injEq] at hs <;> rw [← hs.1] <;> simp only <;>
        rw [get_set_ne hu])

theorem inLock_step {s s' : St} {l : Nat × Act} {es : List Ev} {t : Nat} {th : Th}
    (hs : step s l = some (s', es)) (ht : s.ths[t]? = some th) (hl : th.pc.inLock = true) (hno : Ev.locked t ∉ es) :
    ∃ th', s'.ths[t]? = some th' ∧ th'.pc.inLock = true := by
  obtain ⟨u, a⟩ := l
  by_cases hu : u = t
  · subst hu
    obtain ⟨pc, view⟩ := th
    simp only [step, ht] at hs
    cases pc <;> simp only [PC.inLock, Bool.false_eq_true] at hl
    all_goals cases a <;> simp only [Option.some.injEq, Prod.mk.injEq, reduceCtorEq] at hs
    · obtain ⟨rfl, rfl⟩ := hs
      refine ⟨_, get_set_self ht, ?_⟩
      simp only; split <;> rfl
    · split at hs <;> simp only [Option.some.injEq, Prod.mk.injEq] at hs <;> obtain ⟨rfl, rfl⟩ := hs
      · simp at hno
      · exact ⟨_, get_set_self ht, rfl⟩
    · obtain ⟨rfl, rfl⟩ := hs
      exact ⟨_, get_set_self ht, rfl⟩
  · exact ⟨th, by rw [step_other hs hu]; exact ht, hl⟩

theorem inShared_step {s s' : St} {l : Nat × Act} {es : List Ev} {t : Nat} {th : Th}
    (hs : step s l = some (s', es)) (ht : s.ths[t]? = some th) (hl : th.pc.inShared = true)
    (hno : Ev.lockedShared t ∉ es) : ∃ th', s'.ths[t]? = some th' ∧ th'.pc.inShared = true := by
  obtain ⟨u, a⟩ := l
  by_cases hu : u = t
  · subst hu
    obtain ⟨pc, view⟩ := th
    simp only [step, ht] at hs
    cases pc <;> simp only [PC.inShared, Bool.false_eq_true] at hl
    all_goals cases a <;> simp only [Option.some.injEq, Prod.mk.injEq, reduceCtorEq] at hs
    · obtain ⟨rfl, rfl⟩ := hs
      refine ⟨_, get_set_self ht, ?_⟩
      simp only; split <;> rfl
    · obtain ⟨rfl, rfl⟩ := hs
      exact ⟨_, get_set_self ht, rfl⟩
    · split at hs <;> simp only [Option.some.injEq, Prod.mk.injEq] at hs <;> obtain ⟨rfl, rfl⟩ := hs
      · simp at hno
      · exact ⟨_, get_set_self ht, rfl⟩
    · obtain ⟨rfl, rfl⟩ := hs
      exact ⟨_, get_set_self ht, rfl⟩
  · exact ⟨th, by rw [step_other hs hu]; exact ht, hl⟩

theorem inLock_exec {s s' : St} {tr : List Ev} {t : Nat} (h : Exec step s tr s')
    (hl : ∃ th, s.ths[t]? = some th ∧ th.pc.inLock = true) (hno : Ev.locked t ∉ tr) :
    ∃ th, s'.ths[t]? = some th ∧ th.pc.inLock = true := by
  induction h with
  | init => exact hl
  | snoc _ hs ih =>
    rw [List.mem_append, not_or] at hno
    obtain ⟨th, h1, h2⟩ := ih hno.1
    exact inLock_step hs h1 h2 hno.2

theorem inShared_exec {s s' : St} {tr : List Ev} {t : Nat} (h : Exec step s tr s')
    (hl : ∃ th, s.ths[t]? = some th ∧ th.pc.inShared = true) (hno : Ev.lockedShared t ∉ tr) :
    ∃ th, s'.ths[t]? = some th ∧ th.pc.inShared = true := by
  induction h with
  | init => exact hl
  | snoc _ hs ih =>
    rw [List.mem_append, not_or] at hno
    obtain ⟨th, h1, h2⟩ := ih hno.1
    exact inShared_step hs h1 h2 hno.2

/-- C05.  However long a call of `lock()` has been running: if nobody owns the mutex now, the call returns owning it after
at most two further steps of its own (loads read the present value, the CAS does not fail spuriously).  In particular
`lock()` never returns without owning the mutex. -/
theorem C05_lock_completes {n : Nat} {tr es tr' : List Ev} {s s1 s2 : St} {t : Nat}
    (h : Exec step (init n) tr s) (hc : step s (t, .callLock) = some (s1, es))
    (h' : Exec step s1 tr' s2) (hno : Ev.locked t ∉ tr') (hfree : ∀ i, ownership (tr ++ es ++ tr') i = .none) :
    ∃ ls s3, ls.length ≤ 2 ∧ (∀ l ∈ ls, l = (t, .go) ∨ l = (t, .load s2.word.val)) ∧
      runFrom step s2 ls = some (s3, [.locked t]) := by
  have hx : Exec step (init n) (tr ++ es ++ tr') s2 := (Exec.snoc h hc).trans h'
  have h1 : ∃ th, s1.ths[t]? = some th ∧ th.pc.inLock = true := by
    simp only [step] at hc
    split at hc
    · cases hc
    next th ht =>
    obtain ⟨pc, view⟩ := th
    cases pc <;> simp only [Option.some.injEq, Prod.mk.injEq, reduceCtorEq] at hc
    obtain ⟨rfl, rfl⟩ := hc
    exact ⟨_, get_set_self ht, rfl⟩
  obtain ⟨⟨pc, view⟩, ht, hp⟩ := inLock_exec h' h1 hno
  have hv := (free_iff hx).mpr hfree
  cases pc <;> simp only [PC.inLock, Bool.false_eq_true] at hp
  · have : ∃ s3, runFrom step s2 [(t, .load s2.word.val), (t, .go)] = some (s3, [.locked t]) := by
      simp only [runFrom, step, ht, hv, if_true, get_set_self ht]
      exact ⟨_, rfl⟩
    obtain ⟨s3, h3⟩ := this
    exact ⟨_, s3, Nat.le_refl _, by simp, h3⟩
  · have : ∃ s3, runFrom step s2 [(t, .go)] = some (s3, [.locked t]) := by
      simp only [runFrom, step, ht, hv, if_true]
      exact ⟨_, rfl⟩
    obtain ⟨s3, h3⟩ := this
    exact ⟨_, s3, by simp, by simp, h3⟩

/-- The word allows one more reader exactly when there is no exclusive owner and fewer than 2^31 readers. -/
theorem masked_eq {n : Nat} {tr : List Ev} {s : St} (h : Exec step (init n) tr s)
    (hno : ∀ i, ownership tr i ≠ .exclusive) (hcnt : s.ths.countP Th.isSh < 2 ^ 31) : masked s.word.val = s.word.val := by
  have I := (inv_exec h).1
  have A := agree_exec h
  have hE : s.ths.countP Th.isEx = 0 := by
    apply countP_eq_zero_of_forall
    intro i x hx
    have := hno i
    rw [A i, hx] at this
    simpa [Th.isEx] using this
  rcases I.word with ⟨_, h2, _⟩ | ⟨h1, _, _⟩
  · rw [← UInt32.toNat_inj]
    unfold masked readerMask
    rw [UInt32.toNat_and]
    have hmask : (0x7fffffff : UInt32).toNat = 2 ^ 31 - 1 := rfl
    rw [hmask, Nat.and_two_pow_sub_one_eq_mod]
    omega
  · omega

/-- C05.  However long a call of `lock_shared()` has been running: if there is no exclusive owner now (and fewer than 2^31
readers), the call returns owning the mutex after at most four further steps of its own. -/
theorem C05_lock_shared_completes {n : Nat} {tr es tr' : List Ev} {s s1 s2 : St} {t : Nat}
    (h : Exec step (init n) tr s) (hc : step s (t, .callLockShared) = some (s1, es))
    (h' : Exec step s1 tr' s2) (hno : Ev.lockedShared t ∉ tr')
    (hfree : ∀ i, ownership (tr ++ es ++ tr') i ≠ .exclusive) (hcnt : s2.ths.countP Th.isSh < 2 ^ 31) :
    ∃ ls s3, ls.length ≤ 4 ∧ (∀ l ∈ ls, l = (t, .go) ∨ l = (t, .load s2.word.val)) ∧
      runFrom step s2 ls = some (s3, [.lockedShared t]) := by
  have hx : Exec step (init n) (tr ++ es ++ tr') s2 := (Exec.snoc h hc).trans h'
  have h1 : ∃ th, s1.ths[t]? = some th ∧ th.pc.inShared = true := by
    simp only [step] at hc
    split at hc
    · cases hc
    next th ht =>
    obtain ⟨pc, view⟩ := th
    cases pc <;> simp only [Option.some.injEq, Prod.mk.injEq, reduceCtorEq] at hc
    obtain ⟨rfl, rfl⟩ := hc
    exact ⟨_, get_set_self ht, rfl⟩
  obtain ⟨⟨pc, view⟩, ht, hp⟩ := inShared_exec h' h1 hno
  have hm := masked_eq hx hfree hcnt
  have hne : s2.word.val ≠ lockedState := by
    intro he
    rw [he] at hm
    exact absurd hm (by decide)
  cases pc with
  | sharedSpin =>
    have : ∃ s3, runFrom step s2 [(t, .load s2.word.val), (t, .load s2.word.val), (t, .go)] = some (s3, [.lockedShared t]) := by
      simp only [runFrom, step, ht, hm, hne, if_true, if_false, get_set_self ht, get_set_self (get_set_self ht)]
      exact ⟨_, rfl⟩
    obtain ⟨s3, h3⟩ := this
    exact ⟨_, s3, by simp, by simp, h3⟩
  | sharedLoad =>
    have : ∃ s3, runFrom step s2 [(t, .load s2.word.val), (t, .go)] = some (s3, [.lockedShared t]) := by
      simp only [runFrom, step, ht, hm, if_true, get_set_self ht]
      exact ⟨_, rfl⟩
    obtain ⟨s3, h3⟩ := this
    exact ⟨_, s3, by simp, by simp, h3⟩
  | sharedCas cur =>
    by_cases hcur : s2.word.val = cur
    · have : ∃ s3, runFrom step s2 [(t, .go)] = some (s3, [.lockedShared t]) := by
        simp only [runFrom, step, ht, hcur, if_true]
        exact ⟨_, rfl⟩
      obtain ⟨s3, h3⟩ := this
      exact ⟨_, s3, by simp, by simp, h3⟩
    · have : ∃ s3, runFrom step s2 [(t, .go), (t, .load s2.word.val), (t, .load s2.word.val), (t, .go)] =
          some (s3, [.lockedShared t]) := by
        simp only [runFrom, step, ht, hm, hne, hcur, if_true, if_false, get_set_self ht, get_set_self (get_set_self ht),
          get_set_self (get_set_self (get_set_self ht))]
        exact ⟨_, rfl⟩
      obtain ⟨s3, h3⟩ := this
      exact ⟨_, s3, by simp, by simp, h3⟩
  | _ => cases hp

/-- Thread 1 is inside `lock_shared()` with an outdated word while thread 0 holds and releases the mutex. -/
example : ∃ tr es tr' s s1 s2, Exec step (init 2) tr s ∧ step s (1, .callLockShared) = some (s1, es) ∧
    Exec step s1 tr' s2 ∧ Ev.lockedShared 1 ∉ tr' ∧ Ev.unlockedShared 0 ∈ tr' ∧
    ∀ i, ownership (tr ++ es ++ tr') i = .none := by
  refine ⟨_, _, _, _, _, _, exec_of_run (ls := [(0, .callLockShared), (0, .load 0), (0, .load 0), (0, .go)]) rfl, rfl,
    exec_of_run (ls := [(1, .load 1), (1, .load 1), (0, .callUnlockShared), (0, .go)]) rfl, by decide, by decide, ?_⟩
  intro i
  simp only [ownership, List.foldl, ownUpd, List.cons_append, List.nil_append, List.append_nil]
  split <;> rfl

end Verif.SharedSpin
