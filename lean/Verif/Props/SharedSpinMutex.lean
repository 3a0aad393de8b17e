import Verif.Proof.SharedSpinMutex

/-!
# Properties of `shared_spin_mutex` (C04 - C08)

`ownership tr t` (in `Verif.Spec.SharedSpinMutex`) is the specification of ownership; it looks only at the calls that
returned.
-/

namespace Verif.SharedSpin

/-- C04.  While a thread owns exclusively, no other thread owns in any mode.  No bound on the number of threads. -/
theorem C04_shared_spin_exclusion (n : Nat) (tr : List Ev) (s : St) (h : Exec step (init n) tr s) (i j : Nat)
    (hi : ownership tr i = .exclusive) (hj : ownership tr j ≠ .none) : i = j := by
  have I := (inv_exec h).1
  have A := agree_exec h
  obtain ⟨a, ha, hao⟩ := A.get (t := i) (by rw [hi]; simp)
  obtain ⟨b, hb, hbo⟩ := A.get hj
  rw [hi] at hao
  have hae : a.isEx = true := by simp [Th.isEx, hao]
  have hpos := countP_pos_of_get (p := Th.isEx) ha hae
  rcases I.word with ⟨h1, _⟩ | ⟨h1, h2, _⟩
  · omega
  · cases hk : ownership tr j with
    | none => exact absurd hk hj
    | exclusive =>
      by_cases hij : i = j
      · exact hij
      · have hbe : b.isEx = true := by simp [Th.isEx, hbo, hk]
        have := countP_two (p := Th.isEx) hij ha hb hae hbe
        omega
    | shared =>
      have hbs : b.isSh = true := by simp [Th.isSh, hbo, hk]
      have := countP_pos_of_get (p := Th.isSh) hb hbs
      omega

/-- The word is zero exactly when nobody owns the mutex. -/
theorem free_iff {n : Nat} {tr : List Ev} {s : St} (h : Exec step (init n) tr s) :
    s.word.val = unlockedState ↔ ∀ i, ownership tr i = .none := by
  have I := (inv_exec h).1
  have A := agree_exec h
  constructor
  · intro hv i
    by_cases hne : ownership tr i = .none
    · exact hne
    · obtain ⟨a, ha, hao⟩ := A.get hne
      exfalso
      rcases I.word with ⟨h1, h2, _⟩ | ⟨_, _, h3⟩
      · rw [hv] at h2
        have hz : (unlockedState).toNat = 0 := rfl
        cases hk : ownership tr i with
        | none => exact hne hk
        | exclusive =>
          have := countP_pos_of_get (p := Th.isEx) ha (by simp [Th.isEx, hao, hk])
          omega
        | shared =>
          have := countP_pos_of_get (p := Th.isSh) ha (by simp [Th.isSh, hao, hk])
          omega
      · rw [hv] at h3
        exact absurd h3 (by decide)
  · intro hall
    have hE : s.ths.countP Th.isEx = 0 := by
      apply countP_eq_zero_of_forall
      intro i x hx
      have := hall i
      rw [A i, hx] at this
      simp only at this
      simp [Th.isEx, this]
    have hS : s.ths.countP Th.isSh = 0 := by
      apply countP_eq_zero_of_forall
      intro i x hx
      have := hall i
      rw [A i, hx] at this
      simp only at this
      simp [Th.isSh, this]
    rcases I.word with ⟨h1, h2, _⟩ | ⟨h1, _, _⟩
    · rw [hS] at h2
      exact UInt32.toNat_inj.mp h2
    · omega

/-- C05.  `try_lock` returns true exactly when nobody owns the mutex in any mode at the instant of its CAS. -/
theorem C05_try_lock_exact (n : Nat) (tr : List Ev) (s s' : St) (h : Exec step (init n) tr s) (t : Nat) (a : Act)
    (ok : Bool) (hs : step s (t, a) = some (s', [Ev.tried t ok])) :
    ok = true ↔ ∀ i, ownership tr i = .none := by
  rw [← free_iff h]
  unfold step at hs
  simp only at hs
  split at hs
  · cases hs
  next th hth =>
  obtain ⟨pc, view⟩ := th
  simp only at hs
  split at hs
  any_goals (simp only [Option.some.injEq, Prod.mk.injEq] at hs; exact absurd hs.2 (by simp))
  any_goals (cases hs; done)
  all_goals (
    split at hs
    · next hv => simp at hs <;> simp [hv, ← hs.2]
    · next hv => simp at hs <;> simp [hv, ← hs.2])

/-- An attempt that succeeds after two readers have left, and one that fails while they are there. -/
example : ∃ tr s s' tr₂ s₂ s₂', Exec step (init 3) tr s ∧ step s (2, .go) = some (s', [.tried 2 true]) ∧
    Exec step (init 3) tr₂ s₂ ∧ step s₂ (2, .go) = some (s₂', [.tried 2 false]) :=
  ⟨_, _, _, _, _, _, exec_of_run (r := (_, _)) (ls := [(0, .callLockShared), (0, .load 0), (0, .load 0), (0, .go), (0, .callUnlockShared), (0, .go), (2, .callTry)]) rfl, rfl,
    exec_of_run (r := (_, _)) (ls := [(0, .callLockShared), (0, .load 0), (0, .load 0), (0, .go), (2, .callTry)]) rfl, rfl⟩

/-- C05.  The CAS of `lock()` acquires when nobody owns the mutex (unless it fails spuriously). -/
theorem C05_lock_succeeds_when_free (n : Nat) (tr : List Ev) (s : St) (h : Exec step (init n) tr s) (t : Nat) (th : Th)
    (ht : s.ths[t]? = some th) (hpc : th.pc = .lockCas) (hfree : ∀ i, ownership tr i = .none) :
    ∃ s', step s (t, .go) = some (s', [Ev.locked t]) := by
  have hv := (free_iff h).mpr hfree
  obtain ⟨pc, view⟩ := th
  simp only at hpc
  subst hpc
  simp [step, ht, hv]

example : ∃ tr s th, Exec step (init 2) tr s ∧ s.ths[1]? = some th ∧ th.pc = .lockCas ∧ ∀ i, ownership tr i = .none :=
  ⟨_, _, _, exec_of_run (r := (_, _)) (ls := [(1, .callLock), (1, .load 0)]) rfl, rfl, rfl, fun _ => rfl⟩

/-- C06.  At most 2^31 threads own the mutex in shared mode, however many try; the encoding never overflows. -/
theorem C06_shared_capacity (n : Nat) (tr : List Ev) (s : St) (h : Exec step (init n) tr s) :
    (List.range s.ths.length).countP (fun i => ownership tr i = .shared) ≤ 2 ^ 31 := by
  have I := (inv_exec h).1
  have A := agree_exec h
  have hmap : s.ths.countP Th.isSh =
      (List.range s.ths.length).countP (fun i => ownership tr i = .shared) := by
    have e1 : s.ths = (List.range s.ths.length).map (fun i => s.ths[i]?.getD ⟨.idle, []⟩) := by
      apply List.ext_getElem?
      intro i
      simp only [List.getElem?_map]
      by_cases hi : i < s.ths.length
      · simp [hi]
      · simp [hi]
    conv => lhs; rw [e1]
    rw [List.countP_map]
    apply List.countP_congr
    intro i hi
    rw [List.mem_range] at hi
    simp only [Function.comp, A i, List.getElem?_eq_getElem hi, Option.getD_some, Th.isSh]
  rw [← hmap]
  rcases I.word with ⟨_, h2, h3⟩ | ⟨_, h2, _⟩ <;> omega

/-- C06.  Storing one more reader yields the exclusive encoding exactly at 2^31 - 1 readers: the limit is sharp. -/
theorem C06_capacity_sharp (cur : UInt32) (hcur : cur.toNat < 2 ^ 31) :
    cur + 1 = lockedState ↔ cur.toNat = 2 ^ 31 - 1 := by
  rw [← UInt32.toNat_inj, UInt32.toNat_add]
  have h1 : (1 : UInt32).toNat = 1 := rfl
  have h2 : lockedState.toNat = 2147483648 := rfl
  omega

example : (0x7FFFFFFF : UInt32).toNat < 2 ^ 31 ∧ (0x7FFFFFFF : UInt32) + 1 = lockedState ∧ (0x7FFFFFFE : UInt32) + 1 ≠ lockedState := by decide

/-- C07.  An exclusive owner has observed everything done before any earlier release, shared or exclusive. -/
theorem C07_exclusive_sees_all (n : Nat) (tr : List Ev) (s : St) (h : Exec step (init n) tr s) (i : Nat)
    (hi : ownership tr i = .exclusive) (j id : Nat) (pre post : List Ev) (rel : Ev)
    (hrel : rel = .unlocked j ∨ rel = .unlockedShared j)
    (htr : tr = pre ++ rel :: post) (hw : Ev.work j id ∈ pre) :
    ∃ th, s.ths[i]? = some th ∧ id ∈ th.view := by
  have I := (inv_exec h).1
  have A := agree_exec h
  obtain ⟨a, ha, hao⟩ := A.get (t := i) (by rw [hi]; simp)
  refine ⟨a, ha, I.pubEx i a ha (by simp [Th.isEx, hao, hi]) id ⟨pre, post, rel, j, _, htr, ?_, hw, rfl⟩⟩
  rcases hrel with rfl | rfl <;> rfl

/-- C07.  A shared owner has observed everything done before any earlier exclusive release. -/
theorem C07_shared_sees_exclusive (n : Nat) (tr : List Ev) (s : St) (h : Exec step (init n) tr s) (i : Nat)
    (hi : ownership tr i = .shared) (j id : Nat) (pre post : List Ev)
    (htr : tr = pre ++ Ev.unlocked j :: post) (hw : Ev.work j id ∈ pre) :
    ∃ th, s.ths[i]? = some th ∧ id ∈ th.view := by
  have I := (inv_exec h).1
  have A := agree_exec h
  obtain ⟨a, ha, hao⟩ := A.get (t := i) (by rw [hi]; simp)
  exact ⟨a, ha, I.pubSh i a ha (by simp [Th.isSh, hao, hi]) id ⟨pre, post, _, j, _, htr, rfl, hw, rfl⟩⟩

/-! ## C08: `try_lock_shared` can fail although nobody owns the mutex exclusively -/

/-- Thread 0 loads the (current) word 0 in `try_lock_shared`; thread 1 becomes a reader; thread 0's CAS fails. -/
def spuriousRun : List (Nat × Act) :=
  [(0, .callTryShared), (0, .load 0), (1, .callTryShared), (1, .load 0), (1, .go), (0, .go)]

/-- C08 is false: there is an execution in which `try_lock_shared` returns false although no thread ever acquired the
mutex exclusively, and all loads read the newest value. -/
theorem C08_try_lock_shared_refuted :
    ∃ tr s, Exec step (init 2) tr s ∧ Ev.triedShared 0 false ∈ tr ∧
      ∀ t, Ev.locked t ∉ tr ∧ Ev.tried t true ∉ tr := by
  refine ⟨_, _, exec_of_run (ls := spuriousRun) rfl, by decide, ?_⟩
  intro t
  constructor <;> simp

/-- The missing part of C08: without another thread's step between its load and its CAS, `try_lock_shared` returns true
exactly when there is no exclusive owner (and the reader count is not exhausted). -/
theorem C08_try_lock_shared_partial (n : Nat) (tr : List Ev) (s : St) (h : Exec step (init n) tr s) (t : Nat) (th : Th)
    (ht : s.ths[t]? = some th) (hpc : th.pc = .idle) :
    ∃ s' ok, runFrom step s [(t, .callTryShared), (t, .load s.word.val), (t, .go)] =
        some (s', [Ev.triedShared t ok]) ∧
      (ok = true ↔ ((∀ i, ownership tr i ≠ .exclusive) ∧ s.ths.countP Th.isSh < 2 ^ 31)) := by
  have I := (inv_exec h).1
  have A := agree_exec h
  obtain ⟨pc, view⟩ := th
  simp only at hpc
  subst hpc
  have hlt : t < s.ths.length := (List.getElem?_eq_some_iff.mp ht).1
  by_cases hm : s.word.val = masked s.word.val
  · refine ⟨{ s with word := (s.word.rmw sharedOrder view (s.word.val + 1)).1,
                     ths := s.ths.set t ⟨.sharer, (s.word.rmw sharedOrder view (s.word.val + 1)).2⟩ }, true, ?_, ?_⟩
    · simp only [runFrom, step, ht, List.getElem?_set_self hlt, List.set_set, List.length_set, hlt, ← hm, if_true,
        List.nil_append, List.append_nil]
    · simp only [true_iff]
      have hlt' := masked_lt s.word.val
      rw [← hm] at hlt'
      rcases I.word with ⟨h1, h2, _⟩ | ⟨_, _, h3⟩
      · refine ⟨?_, by omega⟩
        intro i hi
        obtain ⟨a, ha, hao⟩ := A.get (t := i) (by rw [hi]; simp)
        have := countP_pos_of_get (p := Th.isEx) ha (by simp [Th.isEx, hao, hi])
        omega
      · rw [h3] at hlt'
        exact absurd hlt' (by decide)
  · refine ⟨{ s with ths := s.ths.set t ⟨.idle, view⟩ }, false, ?_, ?_⟩
    · simp only [runFrom, step, ht, List.getElem?_set_self hlt, List.set_set, List.length_set, hlt, hm, if_false,
        List.nil_append, List.append_nil]
    · simp only [Bool.false_eq_true, false_iff, not_and]
      intro hno hcnt
      apply hm
      have hE : s.ths.countP Th.isEx = 0 := by
        apply countP_eq_zero_of_forall
        intro i x hx
        have := hno i
        rw [A i, hx] at this
        simpa [Th.isEx] using this
      rcases I.word with ⟨_, h2, _⟩ | ⟨h1, _, _⟩
      · rw [← UInt32.toNat_inj]
        unfold masked readerMask
        rw [UInt32.toNat_and]
        have hmask : (0x7fffffff : UInt32).toNat = 2 ^ 31 - 1 := rfl
        rw [hmask, Nat.and_two_pow_sub_one_eq_mod]
        omega
      · omega

/-! ## The hypotheses are met by real runs -/

/-- Two readers, then a writer, then a reader. -/
def demo : List (Nat × Act) :=
  [(0, .doWork), (0, .callLockShared), (0, .load 0), (0, .load 0), (0, .go),
   (1, .callLockShared), (1, .load 1), (1, .load 1), (1, .go),
   (2, .callTry), (2, .go),
   (0, .callUnlockShared), (0, .go), (1, .callUnlockShared), (1, .go),
   (2, .callLock), (2, .load 0), (2, .go), (2, .doWork), (2, .callUnlock), (2, .go),
   (1, .callTryShared), (1, .load 0), (1, .go)]

example : (runFrom step (init 3) demo).map (fun r => (r.2, ownership r.2 1, r.1.ths[1]?.map Th.view)) =
    some ([.work 0 0, .lockedShared 0, .lockedShared 1, .tried 2 false, .unlockedShared 0, .unlockedShared 1,
           .locked 2, .work 2 1, .unlocked 2, .triedShared 1 true], .shared, some [1, 0]) := by
  decide

/-- Exclusive ownership after two shared sections (hypotheses of C04 and C07). -/
example : ∃ tr s, Exec step (init 3) tr s ∧ ownership tr 2 = .exclusive ∧
    ∃ pre post, tr = pre ++ Ev.unlockedShared 0 :: post ∧ Ev.work 0 0 ∈ pre :=
  ⟨_, _, exec_of_run (ls := demo.take 18) rfl, by decide,
    [.work 0 0, .lockedShared 0, .lockedShared 1, .tried 2 false], [.unlockedShared 1, .locked 2], rfl, by decide⟩

end Verif.SharedSpin
