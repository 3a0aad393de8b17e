import Verif.Spec.Interrupted

/-! # C69: interruption by signals is never reported -/

namespace Verif.Interrupted

/-- While the call has not returned, every answer so far was `EINTR` (or one that is about to be reported). -/
def Inv (f : Fn) (tr : List Errno) : PC → Prop
  | .calling => tr = List.replicate tr.length .eintr
  | .wrapped e => ∃ k, tr = List.replicate k .eintr ++ [e] ∧ e ≠ .eintr ∧ f.pthread = true
  | .done o => ∃ k e, tr = List.replicate k .eintr ++ [e] ∧ e ≠ .eintr ∧ Reports f e o

theorem after_reports {f : Fn} {e : Errno} (hf : f.pthread = true) : Reports f e (afterPthread f e) := by
  cases f <;> first | (cases hf; done) | skip
  all_goals
    cases e <;>
      first
      | exact .success rfl
      | exact .failure rfl
      | exact .threw (by intro h; cases h) (by intro h; cases h) rfl
      | exact .assertion (by intro h; cases h) (by intro h; cases h) rfl

theorem sem_reports {f : Fn} {e : Errno} {o : Outcome} (hf : f.pthread = false) (ht : f ≠ .semTryWait)
    (h : semRound f e = some o) : e ≠ .eintr ∧ Reports f e o := by
  cases f <;> first | (cases hf; done) | (exact absurd rfl ht) | skip
  all_goals
    cases e <;> simp only [semRound, Option.some.injEq, reduceCtorEq] at h
    all_goals
      subst h
      refine ⟨by simp, ?_⟩
      first
      | exact .success rfl
      | exact .failure rfl
      | exact .assertion (by simp) (by simp [Fn.expectedFailure]) rfl

theorem sem_retry {f : Fn} {e : Errno} (h : semRound f e = none) : e = .eintr := by
  cases f <;> cases e <;> first | rfl | (cases h; done)

theorem inv_exec {w : Bool} {f : Fn} {tr : List Errno} {pc : PC} (ht : f ≠ .semTryWait)
    (h : Exec (step w f) .calling tr pc) : Inv f tr pc := by
  refine h.invariant (Inv f) (show Inv f [] .calling from rfl) ?_
  intro tr pc a pc' es I hs
  unfold step at hs
  split at hs
  · next e =>
    have hcons : tr ++ [Errno.eintr] = List.replicate (tr ++ [Errno.eintr]).length .eintr := by
      rw [List.length_append, List.length_singleton, List.replicate_succ', ← I]
    split at hs
    · next hf =>
      split at hs
      · split at hs
        · next he => cases hs; subst he; exact hcons
        · next he => cases hs; exact ⟨tr.length, by rw [← I], he, hf⟩
      · split at hs
        · cases hs
        · next he => cases hs; exact ⟨tr.length, by rw [← I], he, hf⟩
    · next hf =>
      have hf' : f.pthread = false := by simpa using hf
      split at hs
      · next hr => cases hs; rw [sem_retry hr]; exact hcons
      · next o hr =>
        cases hs
        have := sem_reports hf' ht hr
        exact ⟨tr.length, e, by rw [← I], this.1, this.2⟩
  · next e =>
    cases hs
    obtain ⟨k, htr, he, hf⟩ := I
    exact ⟨k, e, by rw [List.append_nil]; exact htr, he, after_reports hf⟩
  · cases hs

/-- A call that returns (normally, with `false`/timeout, with an exception or an assertion) was interrupted any number of
times, then got a definite answer from the system, and reports exactly this answer. -/
theorem C69_reports_the_answer {w : Bool} {f : Fn} (ht : f ≠ .semTryWait) {tr : List Errno} {o : Outcome}
    (h : Exec (step w f) .calling tr (.done o)) :
    ∃ k e, tr = List.replicate k .eintr ++ [e] ∧ e ≠ .eintr ∧ Reports f e o :=
  inv_exec ht h

/-- In particular no exception carries `EINTR`. -/
theorem C69_never_thrown {w : Bool} {f : Fn} (ht : f ≠ .semTryWait) {tr : List Errno} :
    ¬ Exec (step w f) .calling tr (.done (.threw .eintr)) := by
  intro h
  obtain ⟨k, e, _, he, hr⟩ := inv_exec ht h
  cases hr
  exact he rfl

/-- After any number of interruptions the call is still waiting for the system, and any definite answer is reported. -/
theorem C69_retries {f : Fn} (ht : f ≠ .semTryWait) (k : Nat) (e : Errno) (he : e ≠ .eintr) :
    Exec (step true f) .calling (List.replicate k .eintr) .calling ∧
    ∃ o, Exec (step true f) .calling (List.replicate k .eintr ++ [e]) (.done o) := by
  have h1 : ∀ k, Exec (step true f) .calling (List.replicate k .eintr) .calling := by
    intro k
    induction k with
    | zero => exact Exec.init
    | succ k ih =>
      rw [List.replicate_succ']
      refine ih.snoc (l := some .eintr) ?_
      cases f <;> first | rfl | exact absurd rfl ht
  refine ⟨h1 k, ?_⟩
  cases hf : f.pthread
  · cases hr : semRound f e with
    | none => exact absurd (sem_retry hr) he
    | some o => exact ⟨o, (h1 k).snoc (l := some e) (by simp [step, hf, hr])⟩
  · have s1 := (h1 k).snoc (l := some e) (s' := .wrapped e) (es := [e]) (by simp [step, hf, he])
    have s2 := s1.snoc (l := none) (s' := .done (afterPthread f e)) (es := []) rfl
    rw [List.append_nil] at s2
    exact ⟨_, s2⟩

/-- `try_wait` of the POSIX semaphore, which does not wait, reports an interruption as failure. -/
theorem C69_try_wait_interrupted : Exec (step true .semTryWait) .calling [.eintr] (.done .failure) :=
  Exec.init.snoc (l := some .eintr) rfl

/-- A timed wait on a condition variable that is interrupted twice and then times out. -/
example : ∃ tr, Exec (step true .condTimedWait) .calling tr (.done .failure) ∧ tr = [.eintr, .eintr, .etimedout] :=
  ⟨_, exec_of_run (step := step true .condTimedWait) (s := .calling)
    (ls := [some .eintr, some .eintr, some .etimedout, none]) (r := (.done .failure, _)) rfl, rfl⟩

end Verif.Interrupted
