import Verif.Proof.OsSemaphore

/-!
# C32 (POSIX, Windows, libdispatch, Mach) and C70

`max` is the largest count the system supports.
-/

namespace Verif.OsSem

/-! ## C32: permits are conserved -/

/-- Between operations: initial count + posts that returned = available permits + waits that reported success.  Waits that
failed, were interrupted or threw and posts refused with an exception do not appear: they change nothing. -/
theorem C32_os_conservation {impl : Impl} {max n c : Nat} {i : UInt32} {tr : List Ev} {s : St}
    (hc : create impl max i = some c) (h : Exec (step impl max) (init c n) tr s)
    (hidle : ∀ (t : Nat) (op : Op) (o : Outcome), s.ths[t]? ≠ some (.done op o)) :
    i.toNat + posted tr = s.count + waited tr := by
  obtain ⟨rfl, hm⟩ := create_eq hc
  have hz : ∀ (p : PC → Bool), (∀ op, p (.calling op) = false) → p .idle = false → s.ths.countP p = 0 := by
    intro p h1 h2
    apply countP_eq_zero_of_forall
    intro t pc hpc
    cases pc with
    | idle => exact h2
    | calling op => exact h1 op
    | done op o => exact absurd hpc (hidle t op o)
  have := (inv_exec hm h).conserved
  rw [hz PC.donePost (fun _ => rfl) rfl, hz PC.doneWait (fun _ => rfl) rfl] at this
  omega

/-- At any time: successful waits and available permits do not exceed the initial count and the posts begun; the count never
exceeds the maximum. -/
theorem C32_os_never_negative {impl : Impl} {max n c : Nat} {i : UInt32} {tr : List Ev} {s : St}
    (hc : create impl max i = some c) (h : Exec (step impl max) (init c n) tr s) :
    waited tr + s.count ≤ i.toNat + postCalls tr ∧ s.count ≤ max := by
  obtain ⟨rfl, hm⟩ := create_eq hc
  have I := inv_exec hm h
  have hle : s.ths.countP PC.donePost ≤ s.ths.countP PC.openPost := countP_le (by
    intro pc hp
    cases pc with
    | done op o => cases op <;> first | rfl | (simp [PC.donePost] at hp)
    | _ => cases hp)
  have h1 := I.conserved
  have h2 := I.posts
  exact ⟨by omega, I.bound⟩

/-- The meaning of each result at the instant at which the call gets its answer: a successful wait takes exactly one permit
that was there, a post that returns adds exactly one; `false` is reported only by `try_wait` and timed waits, changes nothing,
and means that there was no permit, except for a POSIX `try_wait` that was interrupted; exceptions change nothing, and a
POSIX `post` throws only at the maximum. -/
theorem C32_os_results {impl : Impl} {max : Nat} {s s' : St} {t : Nat} {a : Act} {op : Op} {o : Outcome} {es : List Ev}
    (ht : s.ths[t]? = some (.calling op)) (hs : step impl max s (t, a) = some (s', es))
    (ht' : s'.ths[t]? = some (.done op o)) :
    (o = .returned true → if op = .post then s'.count = s.count + 1 else s.count = s'.count + 1) ∧
    (o = .returned false → (op = .tryWait ∨ op = .timedWait) ∧ s'.count = s.count ∧
      (s.count = 0 ∨ impl = .posix ∧ op = .tryWait)) ∧
    (o = .threw ∨ o = .assertion → s'.count = s.count) ∧
    (impl = .posix → op = .post → o = .threw → s.count = max) := by
  simp only [step, ht] at hs
  split at hs
  · contradiction
  · next ans again _ =>
    split at hs
    · contradiction
    next c hc =>
    split at hs
    · split at hs
      · simp only [Option.some.injEq, Prod.mk.injEq] at hs
        obtain ⟨rfl, rfl⟩ := hs
        rw [ht] at ht'
        cases ht'
      · contradiction
    · split at hs
      · simp only [Option.some.injEq, Prod.mk.injEq] at hs
        obtain ⟨rfl, rfl⟩ := hs
        rw [ht] at ht'
        cases ht'
      · next o' hd =>
        simp only [Option.some.injEq, Prod.mk.injEq] at hs
        obtain ⟨rfl, rfl⟩ := hs
        rw [get_set_self ht] at ht'
        cases ht'
        simp only
        cases impl <;> cases op <;> cases ans <;>
          simp only [os, decide, reduceCtorEq, Verdict.finish.injEq, and_false, or_false, false_or, or_self,
            if_false, if_true] at hc hd <;>
          subst hd <;> simp_all <;> omega
  · contradiction
  · contradiction

/-- A call ends with an exception or a failed assertion only if the system reports an error, or an overflow for a `post`, or if a `try_wait` or timed wait of the Mach
semaphore is interrupted.  POSIX and Windows tell an overflow by an exception.  Waits that are interrupted otherwise go on, unless they are `try_wait`s. -/
theorem C32_os_failures {impl : Impl} {max : Nat} {s s' : St} {t : Nat} {ans : Answer} {again : Bool} {op : Op} {es : List Ev}
    (ht : s.ths[t]? = some (.calling op)) (hs : step impl max s (t, .answer ans again) = some (s', es)) :
    (s'.ths[t]? = some (.done op .threw) ∨ s'.ths[t]? = some (.done op .assertion) →
      ans = .error ∨ op = .post ∧ ans = .overflow ∨ impl = .mach ∧ ans = .interrupted ∧ (op = .tryWait ∨ op = .timedWait)) ∧
    (ans = .overflow → s'.ths[t]? = some (.done op .threw)) ∧
    (ans = .interrupted → op = .wait ∨ impl = .posix ∧ op = .timedWait → s' = s ∧ es = []) := by
  simp only [step, ht] at hs
  split at hs
  · contradiction
  next c hc =>
  split at hs
  · split at hs
    · next ha =>
      obtain ⟨rfl, rfl⟩ := Prod.mk.inj (Option.some.inj hs)
      obtain ⟨rfl, rfl⟩ := ha
      simp [ht]
    · contradiction
  · split at hs
    · next hd =>
      obtain ⟨rfl, rfl⟩ := Prod.mk.inj (Option.some.inj hs)
      cases impl <;> cases op <;> cases ans <;> simp [os, decide] at hc hd <;> subst hc <;> simp [ht]
    · next o hd =>
      obtain ⟨rfl, rfl⟩ := Prod.mk.inj (Option.some.inj hs)
      simp only [get_set_self ht]
      cases impl <;> cases op <;> cases ans <;> simp [os, decide] at hc hd <;> subst hd <;> simp

/-- A `try_wait` that finds no permit, and a timed wait that times out, can return `false` at once: neither waits for a `post`. -/
theorem C32_os_failure_possible {impl : Impl} {max : Nat} {s : St} {t : Nat} {op : Op} (ht : s.ths[t]? = some (.calling op))
    (hop : op = .tryWait ∨ op = .timedWait) (hc : s.count = 0) :
    ∃ s', runFrom (step impl max) s [(t, .answer .unavailable false), (t, .ret)] = some (s', [.ret t op (.returned false)]) := by
  rcases hop with rfl | rfl <;> cases impl <;>
    simp [runFrom, step, ht, os, hc, decide, get_set_self ht]

/-- A blocked or new wait succeeds as soon as there is a permit, a post below the maximum succeeds. -/
theorem C32_os_success_possible {impl : Impl} {max : Nat} {s : St} {t : Nat} {op : Op}
    (ht : s.ths[t]? = some (.calling op)) (hc : if op = .post then s.count < max else 0 < s.count) :
    ∃ s' , runFrom (step impl max) s [(t, .answer .ok false), (t, .ret)] = some (s', [.ret t op (.returned true)]) := by
  cases impl <;> cases op <;> simp at hc <;>
    · simp only [runFrom, step, ht, os, hc, if_true, decide, Bool.false_eq_true, if_false, get_set_self ht]
      exact ⟨_, rfl⟩

example : ∃ tr s, Exec (step .mach 5) (init 1 2) tr s ∧ s.ths[0]? = some (.calling .timedWait) ∧ 0 < s.count :=
  ⟨_, _, exec_of_run (ls := [(0, .call .timedWait)]) rfl, rfl, by decide⟩

/-- A wait of the Mach semaphore is interrupted, and goes on; a timed one throws. -/
example : ∃ tr s s', Exec (step .mach 5) (init 0 2) tr s ∧ s.ths = [.calling .wait, .calling .timedWait] ∧ step .mach 5 s (0, .answer .interrupted false) = some (s, []) ∧
    step .mach 5 s (1, .answer .interrupted false) = some (s', []) ∧ s'.ths = [.calling .wait, .done .timedWait .threw] :=
  ⟨_, _, _, exec_of_run (ls := [(0, .call .wait), (1, .call .timedWait)]) rfl, rfl, rfl, rfl, rfl⟩

/-- A `try_wait` that finds no permit. -/
example : ∃ tr s, Exec (step .windows 5) (init 0 1) tr s ∧ s.ths[0]? = some (.calling .tryWait) ∧ s.count = 0 :=
  ⟨_, _, exec_of_run (ls := [(0, .call .tryWait)]) rfl, rfl, rfl⟩

/-- A history with an interruption, a refused post (the maximum is 1 here), a failed `try_wait` and two successful waits. -/
def demo : List (Nat × Act) :=
  [(0, .call .post), (0, .answer .overflow false), (0, .ret),
   (1, .call .wait), (1, .answer .interrupted false), (1, .answer .ok false), (1, .ret),
   (0, .call .tryWait), (0, .answer .unavailable false), (0, .ret),
   (1, .call .timedWait), (1, .answer .unavailable true), (0, .call .post), (0, .answer .ok false), (0, .ret),
   (1, .answer .interrupted false), (1, .answer .ok false), (1, .ret)]

example : ∃ tr s, Exec (step .posix 1) (init 1 2) tr s ∧ create .posix 1 1 = some 1 ∧ posted tr = 1 ∧ waited tr = 2 ∧
    s = ⟨0, [.idle, .idle]⟩ ∧ Ev.ret 0 .post .threw ∈ tr ∧ Ev.ret 0 .tryWait (.returned false) ∈ tr :=
  ⟨_, _, exec_of_run (ls := demo) rfl, by decide, rfl, rfl, rfl, by decide, by decide⟩

/-! ## C70: initial permits of the libdispatch semaphore -/

/-- A semaphore constructed with initial count `i` lets exactly `i` waits through before the first post. -/
theorem C70_initial_permits {max : Nat} {i : UInt32} (hi : i.toNat ≤ max) (k : Nat) :
    (∃ c n tr s, create .dispatch max i = some c ∧ Exec (step .dispatch max) (init c n) tr s ∧ postCalls tr = 0 ∧
      waited tr = k) ↔ k ≤ i.toNat := by
  constructor
  · rintro ⟨c, n, tr, s, hc, h, hp, rfl⟩
    have := (C32_os_never_negative hc h).1
    omega
  · intro hk
    have hc : create .dispatch max i = some i.toNat := by
      simp [create, hi, dispatchLoop_eq]
    obtain ⟨tr, hex, h1, h2⟩ := take_k .dispatch max i.toNat k hk
    exact ⟨_, 1, tr, _, hc, hex, h2, h1⟩

/-- The loop of the constructor leaves exactly `i` permits. -/
theorem C70_constructor {max : Nat} {i : UInt32} (hi : i.toNat ≤ max) : create .dispatch max i = some i.toNat := by
  simp [create, hi, dispatchLoop_eq]

example : (3 : UInt32).toNat ≤ 2 ^ 63 - 1 ∧ dispatchLoop 3 0 = 3 := by decide +kernel

end Verif.OsSem
