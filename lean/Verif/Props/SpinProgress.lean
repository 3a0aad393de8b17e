import Verif.Props.SpinMutex

/-! C03, the part about `lock()`: a call of `lock()` never gives up, and it can return as soon as the mutex is free. -/

namespace Verif.Spin

/-- The thread is inside `lock()`. -/
def PC.inLock : PC → Bool
  | .lockSpin | .lockXchg => true
  | _ => false

theorem inLock_step {v : Variant} {s s' : St} {l : Nat × Act} {es : List Ev} {t : Nat} {th : Th}
    (hs : step v s l = some (s', es)) (ht : s.ths[t]? = some th) (hl : th.pc.inLock = true) (hno : Ev.locked t ∉ es) :
    ∃ th', s'.ths[t]? = some th' ∧ th'.pc.inLock = true := by
  obtain ⟨u, a⟩ := l
  by_cases hu : u = t
  · subst hu
    obtain ⟨pc, view⟩ := th
    simp only [step, ht] at hs
    cases pc <;> simp only [PC.inLock, Bool.false_eq_true] at hl
    all_goals cases a <;> simp only [Option.some.injEq, Prod.mk.injEq, reduceCtorEq] at hs
    · obtain ⟨rfl, rfl⟩ := hs
      refine ⟨_, get_set_self ht, ?_⟩
      simp only; split <;> rfl
    · split at hs <;> simp only [Option.some.injEq, Prod.mk.injEq] at hs <;> obtain ⟨rfl, rfl⟩ := hs
      · simp at hno
      · refine ⟨_, get_set_self ht, ?_⟩
        simp only; split <;> rfl
  · refine ⟨th, ?_, hl⟩
    unfold step at hs
    simp only at hs
    split at hs
    · cases hs
    split at hs
    all_goals first
      | cases hs; done
      | (simp only [Option.some.injEq, Prod.mk.injEq] at hs; rw [← hs.1]; simp only; rw [get_set_ne hu]; exact ht)
      | (split at hs <;> simp only [Option.some.injEq, Prod.mk.injEq] at hs <;> rw [← hs.1] <;> simp only <;>
          rw [get_set_ne hu] <;> exact ht)

theorem inLock_exec {v : Variant} {s s' : St} {tr : List Ev} {t : Nat} (h : Exec (step v) s tr s')
    (hl : ∃ th, s.ths[t]? = some th ∧ th.pc.inLock = true) (hno : Ev.locked t ∉ tr) :
    ∃ th, s'.ths[t]? = some th ∧ th.pc.inLock = true := by
  induction h with
  | init => exact hl
  | snoc _ hs ih =>
    rw [List.mem_append, not_or] at hno
    obtain ⟨th, h1, h2⟩ := ih hno.1
    exact inLock_step hs h1 h2 hno.2

/-- C03.  However long a call of `lock()` has been running, and whatever the other threads did meanwhile: if nobody holds
the mutex now, the call returns owning the mutex after at most two further steps of its own (which read the present
value of the word).  In particular `lock()` never returns without owning the mutex. -/
theorem C03_spin_lock_completes {v : Variant} {n : Nat} {tr es tr' : List Ev} {s s1 s2 : St} {t : Nat}
    (h : Exec (step v) (init n) tr s) (hc : step v s (t, .callLock) = some (s1, es))
    (h' : Exec (step v) s1 tr' s2) (hno : Ev.locked t ∉ tr') (hfree : ∀ i, holds (tr ++ es ++ tr') i = false) :
    ∃ k s3, k ≤ 2 ∧ runFrom (step v) s2 (List.replicate k (t, .go s2.word.val)) = some (s3, [.locked t]) := by
  have hx : Exec (step v) (init n) (tr ++ es ++ tr') s2 := (Exec.snoc h hc).trans h'
  have h1 : ∃ th, s1.ths[t]? = some th ∧ th.pc.inLock = true := by
    simp only [step] at hc
    split at hc
    · cases hc
    next th ht =>
    obtain ⟨pc, view⟩ := th
    cases pc <;> simp only [Option.some.injEq, Prod.mk.injEq, reduceCtorEq] at hc
    obtain ⟨rfl, rfl⟩ := hc
    refine ⟨_, get_set_self ht, ?_⟩
    simp only; split <;> rfl
  obtain ⟨⟨pc, view⟩, ht, hp⟩ := inLock_exec h' h1 hno
  have hv : s2.word.val = true := by
    have I := inv_exec hx
    have A := agree_exec hx
    have hz : s2.ths.countP Th.owns = 0 := by
      apply countP_eq_zero_of_forall
      intro i x hx
      have := hfree i
      rw [A i, hx] at this
      exact this
    have := I.excl
    cases hv : s2.word.val with
    | true => rfl
    | false => rw [hv, hz] at this; simp at this
  cases pc <;> simp only [PC.inLock, Bool.false_eq_true] at hp
  · have : ∃ s3, runFrom (step v) s2 (List.replicate 2 (t, .go s2.word.val)) = some (s3, [.locked t]) := by
      simp only [List.replicate, runFrom, step, ht, hv, if_true, get_set_self ht]
      exact ⟨_, rfl⟩
    obtain ⟨s3, h3⟩ := this
    exact ⟨2, s3, by omega, h3⟩
  · have : ∃ s3, runFrom (step v) s2 (List.replicate 1 (t, .go s2.word.val)) = some (s3, [.locked t]) := by
      simp only [List.replicate, runFrom, step, ht, hv, if_true]
      exact ⟨_, rfl⟩
    obtain ⟨s3, h3⟩ := this
    exact ⟨1, s3, by omega, h3⟩

/-- Thread 1 is inside `lock()` while thread 0 locks and unlocks. -/
example : ∃ tr es tr' s s1 s2, Exec (step .boolTTS) (init 2) tr s ∧ step .boolTTS s (1, .callLock) = some (s1, es) ∧
    Exec (step .boolTTS) s1 tr' s2 ∧ Ev.locked 1 ∉ tr' ∧ Ev.unlocked 0 ∈ tr' ∧ ∀ i, holds (tr ++ es ++ tr') i = false := by
  refine ⟨_, _, _, _, _, _, exec_of_run (ls := [(0, .callLock), (0, .go true), (0, .go true)]) rfl, rfl,
    exec_of_run (ls := [(1, .go true), (1, .go true), (0, .callUnlock), (0, .go true)]) rfl, by decide, by decide, ?_⟩
  intro i
  simp only [holds, List.foldl, holdsUpd, List.cons_append, List.nil_append, List.append_nil]
  split <;> rfl

end Verif.Spin
