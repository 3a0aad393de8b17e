import Verif.Proof.SpinMutex

/-!
# Properties of `spin_mutex` (C01, C02, C03)

`holds tr t` (in `Verif.Spec.SpinMutex`) is the specification of ownership: it looks only at the returned calls
recorded in the trace.
-/

namespace Verif.Spin

/-- C01.  Two threads never hold the mutex at the same time. -/
theorem C01_spin_mutual_exclusion (v : Variant) (n : Nat) (tr : List Ev) (s : St)
    (h : Exec (step v) (init n) tr s) (i j : Nat) (hi : holds tr i = true) (hj : holds tr j = true) : i = j := by
  have I := inv_exec h
  have A := agree_exec h
  rw [A i] at hi
  rw [A j] at hj
  split at hi
  · next a ha =>
    split at hj
    · next b hb => exact I.unique ha hb hi hj
    · cases hj
  · cases hi

/-- C02.  If thread `j` did work `id` and later released the mutex, then every thread holding the mutex afterwards has
observed `id`. -/
theorem C02_spin_happens_before (v : Variant) (n : Nat) (tr : List Ev) (s : St)
    (h : Exec (step v) (init n) tr s) (i : Nat) (hi : holds tr i = true)
    (j id : Nat) (pre post : List Ev) (htr : tr = pre ++ Ev.unlocked j :: post) (hw : Ev.work j id ∈ pre) :
    ∃ th, s.ths[i]? = some th ∧ id ∈ th.view := by
  have I := inv_exec h
  have A := agree_exec h
  rw [A i] at hi
  split at hi
  · next a ha =>
    exact ⟨a, ha, I.pubOwner i a ha hi id ⟨pre, post, _, j, _, htr, rfl, hw, rfl⟩⟩
  · cases hi

/-- C03.  `try_lock` returns true exactly when nobody holds the mutex at the instant of its exchange. -/
theorem C03_spin_try_lock_exact (v : Variant) (n : Nat) (tr : List Ev) (s s' : St)
    (h : Exec (step v) (init n) tr s) (t : Nat) (a : Act) (ok : Bool)
    (hs : step v s (t, a) = some (s', [Ev.tried t ok])) :
    ok = true ↔ ∀ i, holds tr i = false := by
  have I := inv_exec h
  have A := agree_exec h
  have key : s.word.val = true ↔ ∀ i, holds tr i = false := by
    constructor
    · intro hv i
      rw [A i]
      split
      · next x hx =>
        cases ho : x.owns with
        | false => rfl
        | true => have := I.not_free hx ho; rw [hv] at this; cases this
      · rfl
    · intro hall
      have hz : s.ths.countP Th.owns = 0 := by
        apply countP_eq_zero_of_forall
        intro i x hx
        have := hall i
        rw [A i, hx] at this
        exact this
      have := I.excl
      cases hv : s.word.val with
      | true => rfl
      | false => rw [hv, hz] at this; simp at this
  rw [← key]
  unfold step at hs
  simp only at hs
  split at hs
  · cases hs
  next th hth =>
  obtain ⟨pc, view⟩ := th
  simp only at hs
  split at hs
  any_goals (simp only [Option.some.injEq, Prod.mk.injEq] at hs; exact absurd hs.2 (by simp))
  · split at hs
    any_goals (simp only [Option.some.injEq, Prod.mk.injEq] at hs; exact absurd hs.2 (by simp))
  · split at hs
    · next hv => simp at hs; simp [hv, ← hs.2]
    · next hv => simp at hs; simp [hv, ← hs.2]
  · cases hs

/-- C03, second half: a failing attempt leaves the mutex to its holder, and the exchange of a `lock()` call made while
nobody holds the mutex succeeds. -/
theorem C03_spin_lock_succeeds_when_free (v : Variant) (n : Nat) (tr : List Ev) (s : St)
    (h : Exec (step v) (init n) tr s) (t : Nat) (th : Th) (ht : s.ths[t]? = some th)
    (hpc : th.pc = .lockXchg) (hfree : ∀ i, holds tr i = false) (b : Bool) :
    ∃ s', step v s (t, .go b) = some (s', [Ev.locked t]) := by
  have I := inv_exec h
  have A := agree_exec h
  have hz : s.ths.countP Th.owns = 0 := by
    apply countP_eq_zero_of_forall
    intro i x hx
    have := hfree i
    rw [A i, hx] at this
    exact this
  have hv : s.word.val = true := by
    have := I.excl
    cases hv : s.word.val with
    | true => rfl
    | false => rw [hv, hz] at this; simp at this
  obtain ⟨pc, view⟩ := th
  simp only at hpc
  subst hpc
  simp [step, ht, hv]

/-! ## The hypotheses are met by real runs -/

/-- Thread 0 works, locks, works, fails to be overtaken by thread 1's `try_lock`, unlocks; thread 1 locks. -/
def demo : List (Nat × Act) :=
  [(0, .doWork), (0, .callLock), (0, .go true), (0, .go true), (0, .doWork), (1, .callTry), (1, .go true),
   (0, .callUnlock), (0, .go true), (1, .callLock), (1, .go false), (1, .go true), (1, .go true)]

example : (runFrom (step .boolTTS) (init 2) demo).map (fun r => (r.2, holds r.2 1, r.1.ths[1]?.map Th.view)) =
    some ([.work 0 0, .locked 0, .work 0 1, .tried 1 false, .unlocked 0, .locked 1], true, some [1, 0]) := by
  decide

example : ∃ tr s, Exec (step .boolTTS) (init 2) tr s ∧ holds tr 1 = true ∧
    ∃ pre post, tr = pre ++ Ev.unlocked 0 :: post ∧ Ev.work 0 1 ∈ pre :=
  ⟨_, _, exec_of_run (ls := demo) rfl, by decide,
    [.work 0 0, .locked 0, .work 0 1, .tried 1 false], [.locked 1], rfl, by decide⟩

end Verif.Spin
