import Verif.Spec.UserClock
import Verif.Props.Time

/-! # C48, C49: timed operations with a user's clock -/

namespace Verif.UserClock

/-- What has happened so far at each point of the code. -/
def Inv (k : Shape) (d : Int) (tr : List Ev) : PC → Prop
  | .trying => k = .tryThenWhile ∧ tr = []
  | .first => (k = .tryThenWhile → tr = [.tried false]) ∧ (k ≠ .tryThenWhile → tr = [])
  | .body n => (∃ pre, tr = pre ++ [.read n] ∧ (n < d ∨ k = .doWhile ∧ pre = [])) ∧ (∀ r, Ev.ret r ∉ tr)
  | .again => (∃ pre dur, tr = pre ++ [.waited dur false]) ∧ (∀ r, Ev.ret r ∉ tr)
  | .done true => Succeeded tr ∧ Ev.ret false ∉ tr
  | .done false => TimedOut d tr ∧ Ev.ret true ∉ tr ∧ (k = .whileOnly ∨ (∃ e ∈ tr, e = .tried false ∨ ∃ dur, e = .waited dur false))

theorem inv_exec {k : Shape} {d : Int} {tr : List Ev} {pc : PC} (h : Exec (step k d) (start k) tr pc) : Inv k d tr pc ∧
    (∀ dur r, Ev.waited dur r ∈ tr → k ≠ .doWhile → 0 < dur) := by
  refine h.invariant (fun tr pc => Inv k d tr pc ∧ (∀ dur r, Ev.waited dur r ∈ tr → k ≠ .doWhile → 0 < dur)) ?_ ?_
  · refine ⟨?_, by simp⟩
    cases k <;> simp [start, Inv]
  · intro tr pc a pc' es I hs
    obtain ⟨I, J⟩ := I
    unfold step at hs
    split at hs <;> (try (cases hs; done))
    · cases hs
      obtain ⟨hk, rfl⟩ := I
      exact ⟨⟨⟨[], .inl rfl⟩, by simp⟩, by simp⟩
    · cases hs
      obtain ⟨hk, rfl⟩ := I
      exact ⟨⟨fun _ => rfl, fun h => absurd hk h⟩, by simp⟩
    · next n =>
      have htr : ∀ r, Ev.ret r ∉ tr := by
        intro r hm
        by_cases hk : k = .tryThenWhile
        · rw [I.1 hk] at hm; simp at hm
        · rw [I.2 hk] at hm; simp at hm
      split at hs
      · next hk =>
        cases hs
        refine ⟨⟨⟨tr, rfl, .inr ⟨hk, I.2 (by simp [hk])⟩⟩, ?_⟩, fun dur r hm hk' => absurd hk hk'⟩
        intro r hm
        simp only [List.mem_append, List.mem_singleton, reduceCtorEq, or_false] at hm
        exact htr r hm
      · next hk =>
        split at hs
        · next hlt =>
          cases hs
          refine ⟨⟨⟨tr, rfl, .inl hlt⟩, ?_⟩, ?_⟩
          · intro r hm
            simp only [List.mem_append, List.mem_singleton, reduceCtorEq, or_false] at hm
            exact htr r hm
          · intro dur r hm
            simp only [List.mem_append, List.mem_singleton, reduceCtorEq, or_false] at hm
            exact J dur r hm
        · next hge =>
          cases hs
          refine ⟨⟨⟨tr, n, rfl, by omega⟩, ?_, ?_⟩, ?_⟩
          · intro hm
            simp only [List.mem_append, List.mem_cons, reduceCtorEq, Ev.ret.injEq, Bool.true_eq_false, List.not_mem_nil,
              or_false] at hm
            exact htr _ hm
          · cases k with
            | doWhile => exact absurd rfl hk
            | whileOnly => exact .inl rfl
            | tryThenWhile => exact .inr ⟨.tried false, by rw [I.1 rfl]; simp, .inl rfl⟩
          · intro dur r hm
            simp only [List.mem_append, List.mem_cons, reduceCtorEq, List.not_mem_nil, or_false] at hm
            exact J dur r hm
    · next now =>
      cases hs
      obtain ⟨⟨pre, rfl, hn⟩, hr⟩ := I
      refine ⟨⟨⟨_, .inr ⟨_, rfl⟩⟩, ?_⟩, ?_⟩
      · intro hm
        rw [List.mem_append] at hm
        rcases hm with hm | hm
        · exact hr _ hm
        · simp at hm
      · intro dur r hm hk
        rw [List.mem_append] at hm
        rcases hm with hm | hm
        · exact J dur r hm hk
        · simp only [List.mem_cons, Ev.waited.injEq, reduceCtorEq, List.not_mem_nil, or_false] at hm
          rcases hn with hn | hn
          · omega
          · exact absurd hn.1 hk
    · next now =>
      cases hs
      obtain ⟨⟨pre, rfl, hn⟩, hr⟩ := I
      refine ⟨⟨⟨_, _, rfl⟩, ?_⟩, ?_⟩
      · intro r hm
        rw [List.mem_append] at hm
        rcases hm with hm | hm
        · exact hr _ hm
        · simp at hm
      · intro dur r hm hk
        rw [List.mem_append] at hm
        rcases hm with hm | hm
        · exact J dur r hm hk
        · simp only [List.mem_cons, Ev.waited.injEq, List.not_mem_nil, or_false] at hm
          rcases hn with hn | hn
          · omega
          · exact absurd hn.1 hk
    · next n =>
      obtain ⟨⟨pre, dur, rfl⟩, hr⟩ := I
      split at hs
      · next hlt =>
        cases hs
        refine ⟨⟨⟨_, rfl, .inl hlt⟩, ?_⟩, ?_⟩
        · intro r hm
          rw [List.mem_append] at hm
          rcases hm with hm | hm
          · exact hr _ hm
          · simp at hm
        · intro dur r hm
          rw [List.mem_append] at hm
          rcases hm with hm | hm
          · exact J dur r hm
          · simp at hm
      · cases hs
        refine ⟨⟨⟨_, n, rfl, by omega⟩, ?_, .inr ⟨_, by simp, .inr ⟨dur, rfl⟩⟩⟩, ?_⟩
        · intro hm
          rw [List.mem_append] at hm
          rcases hm with hm | hm
          · exact hr _ hm
          · simp at hm
        · intro dur r hm
          rw [List.mem_append] at hm
          rcases hm with hm | hm
          · exact J dur r hm
          · simp at hm

theorem no_ret {k : Shape} {d : Int} {tr : List Ev} {pc : PC} (I : Inv k d tr pc) (r : Bool) (hr : Ev.ret r ∈ tr) : pc = .done r := by
  cases pc with
  | trying => obtain ⟨_, rfl⟩ := I; cases hr
  | first =>
    by_cases hk : k = .tryThenWhile
    · rw [I.1 hk] at hr; simp at hr
    · rw [I.2 hk] at hr; cases hr
  | body n => exact absurd hr (I.2 r)
  | again => exact absurd hr (I.2 r)
  | done r' =>
    cases r' <;> cases r
    · rfl
    · exact absurd hr I.2.1
    · exact absurd hr I.2
    · rfl

/-- Whatever the clock and the primitive do, `false` (`timeout`) is returned only upon a reading at or past the deadline. -/
theorem C48_timeout_only_after_deadline (i : Impl) {d : Int} {tr : List Ev} {pc : PC}
    (h : Exec (step i.shape d) (start i.shape) tr pc) (hr : Ev.ret false ∈ tr) : TimedOut d tr := by
  have I := (inv_exec h).1
  rw [no_ret I false hr] at I
  exact I.1

/-- Success is reported only if the primitive reported it just before. -/
theorem C48_success_only_from_primitive (i : Impl) {d : Int} {tr : List Ev} {pc : PC}
    (h : Exec (step i.shape d) (start i.shape) tr pc) (hr : Ev.ret true ∈ tr) : Succeeded tr := by
  have I := (inv_exec h).1
  rw [no_ret I true hr] at I
  exact I.1

/-- A success of the primitive is never lost: it is returned at once. -/
theorem C48_success_returned (i : Impl) {d : Int} {tr : List Ev} {pc : PC}
    (h : Exec (step i.shape d) (start i.shape) tr pc) (hs : Ev.tried true ∈ tr ∨ ∃ dur, Ev.waited dur true ∈ tr) :
    pc = .done true := by
  have key : (Ev.tried true ∈ tr ∨ ∃ dur, Ev.waited dur true ∈ tr) → pc = .done true := by
    refine h.invariant (fun tr pc => (Ev.tried true ∈ tr ∨ ∃ dur, Ev.waited dur true ∈ tr) → pc = .done true) (by simp) ?_
    intro tr pc a pc' es I hs hm
    unfold step at hs
    have old : (Ev.tried true ∉ es ∧ ∀ dur, Ev.waited dur true ∉ es) → pc = .done true := by
      intro hn
      apply I
      rcases hm with hm | ⟨dur, hm⟩ <;> rw [List.mem_append] at hm
      · exact .inl (hm.resolve_right hn.1)
      · exact .inr ⟨dur, hm.resolve_right (hn.2 dur)⟩
    split at hs <;> (try (cases hs; done)) <;> (try split at hs) <;> (try split at hs) <;> cases hs <;>
      first
      | rfl
      | (exfalso; have := old (by simp); cases this)
  exact key hs

/-- What may come right after what, in the trace of a call with deadline `d`; `n` read after a failed wait. -/
def Follows (d : Int) : Ev → Ev → Prop
  /- a wait lasts at most until the deadline, counted from the last reading -/
  | .read n, .waited dur _ => dur = d - n
  | .read n, .ret r => d ≤ n ∧ r = false
  /- after a failure the clock is read, after a success the call returns -/
  | .tried false, .read _ => True
  | .waited _ false, .read _ => True
  | .tried true, .ret r => r = true
  | .waited _ true, .ret r => r = true
  | _, _ => False

/-- Every consecutive events of a trace are related. -/
def Chained (R : Ev → Ev → Prop) (tr : List Ev) : Prop := ∀ p x y q, tr = p ++ x :: y :: q → R x y

theorem chained_nil {R : Ev → Ev → Prop} : Chained R [] := fun p x y q h => by cases p <;> cases h

theorem chained_one {R : Ev → Ev → Prop} (e : Ev) : Chained R [e] := fun p x y q h => by
  cases p with
  | nil => cases h
  | cons _ p => cases p <;> cases h

theorem chained_snoc {R : Ev → Ev → Prop} {tr : List Ev} {x y : Ev} (h : Chained R (tr ++ [x])) (hxy : R x y) :
    Chained R (tr ++ [x, y]) := by
  intro p a b q e
  rcases List.eq_nil_or_concat q with rfl | ⟨q', z, rfl⟩
  · have e' : tr ++ [x, y] = p ++ [a, b] := e
    have := List.append_inj_right' e' rfl
    cases this
    exact hxy
  · have e' : (tr ++ [x]) ++ [y] = (p ++ a :: b :: q') ++ [z] := by simpa using e
    have := List.append_inj_left' e' rfl
    exact h p a b q' this

/-- The end of the trace at each point of the code. -/
def Last (tr : List Ev) : PC → Prop
  | .trying => tr = []
  | .first => tr = [] ∨ tr = [.tried false]
  | .body n => ∃ p, tr = p ++ [.read n]
  | .again => ∃ p dur, tr = p ++ [.waited dur false]
  | .done r => ∃ p, tr = p ++ [.ret r]

theorem chained_exec {k : Shape} {d : Int} {tr : List Ev} {pc : PC} (h : Exec (step k d) (start k) tr pc) :
    Chained (Follows d) tr ∧ Last tr pc := by
  refine h.invariant (fun tr pc => Chained (Follows d) tr ∧ Last tr pc) ?_ ?_
  · refine ⟨chained_nil, ?_⟩
    cases k <;> simp [start, Last]
  · intro tr pc a pc' es I hs
    obtain ⟨C, L⟩ := I
    unfold step at hs
    split at hs <;> (try (cases hs; done))
    · cases hs
      cases L
      exact ⟨chained_snoc (tr := []) (chained_one _) rfl, [_], rfl⟩
    · cases hs
      cases L
      exact ⟨chained_one _, .inr rfl⟩
    · next n =>
      have C1 : Chained (Follows d) (tr ++ [.read n]) := by
        rcases L with rfl | rfl
        · exact chained_one _
        · exact chained_snoc (tr := []) (chained_one _) trivial
      split at hs
      · cases hs; exact ⟨C1, _, rfl⟩
      · split at hs
        · cases hs; exact ⟨C1, _, rfl⟩
        · cases hs; exact ⟨chained_snoc C1 ⟨by omega, rfl⟩, tr ++ [.read n], by simp⟩
    · next now =>
      cases hs
      obtain ⟨p, rfl⟩ := L
      have := chained_snoc (y := .waited (d - now) true) C rfl
      exact ⟨chained_snoc (tr := p ++ [.read now]) (x := .waited (d - now) true) (y := .ret true) (R := Follows d) (by simpa using this) rfl,
        (p ++ [.read now]) ++ [.waited (d - now) true], by simp⟩
    · next now =>
      cases hs
      obtain ⟨p, rfl⟩ := L
      have := chained_snoc (y := .waited (d - now) false) C rfl
      exact ⟨by simpa using this, p ++ [.read now], d - now, by simp⟩
    · next n =>
      obtain ⟨p, dur, rfl⟩ := L
      have C1 := chained_snoc (y := .read n) C trivial
      have C1' : Chained (Follows d) ((p ++ [.waited dur false]) ++ [.read n]) := by simpa using C1
      split at hs
      · cases hs; exact ⟨C1', _, rfl⟩
      · cases hs; exact ⟨chained_snoc C1' ⟨by omega, rfl⟩, (p ++ [.waited dur false]) ++ [.read n], by simp⟩

/-- The course of a call: each wait is for the time from the last reading of the clock until the deadline, after a failed
attempt the clock is read again, after a success the call returns true, after a reading it waits or times out. -/
theorem C48_course (i : Impl) {d : Int} {tr : List Ev} {pc : PC} (h : Exec (step i.shape d) (start i.shape) tr pc) :
    Chained (Follows d) tr := (chained_exec h).1

/-- Only the first wait of a call may be for a duration that is not positive. -/
theorem waited_positive {k : Shape} {d : Int} {tr : List Ev} {pc : PC} (h : Exec (step k d) (start k) tr pc) :
    ∀ p dur r q, tr = p ++ .waited dur r :: q → 0 < dur ∨ p.length = 1 := by
  induction h with
  | init => intro p dur r q e; cases p <;> cases e
  | @snoc tr pc a pc' es hx hs ih =>
    intro p dur r q e
    rcases List.append_eq_append_iff.mp e with ⟨x, hx1, hx2⟩ | ⟨x, hx1, hx2⟩
    · -- the wait is new
      have I := (inv_exec hx).1
      unfold step at hs
      split at hs <;> (try (cases hs; done)) <;> (try split at hs) <;> (try split at hs) <;> cases hs
      all_goals (rcases x with _ | ⟨y, _ | ⟨z, x⟩⟩ <;> simp at hx2)
      all_goals
        simp only [List.append_nil] at hx1
        subst hx1
        obtain ⟨⟨pre, rfl, hn⟩, _⟩ := I
        rcases hn with hn | ⟨_, rfl⟩
        · left; omega
        · right; rfl
    · cases x with
      | nil =>
        have I := (inv_exec hx).1
        simp only [List.nil_append, List.append_nil] at hx1 hx2
        subst hx1
        unfold step at hs
        split at hs <;> (try (cases hs; done)) <;> (try split at hs) <;> (try split at hs) <;> cases hs
        all_goals simp at hx2
        all_goals
          obtain ⟨⟨pre, rfl, hn⟩, _⟩ := I
          rcases hn with hn | ⟨_, rfl⟩
          · left; omega
          · right; rfl
      | cons y x =>
        simp only [List.cons_append, List.cons.injEq] at hx2
        obtain ⟨rfl, _⟩ := hx2
        exact ih p dur r x hx1

/-- Once a wait has failed and the clock then reads the deadline or later, the call times out; it does not wait again. -/
theorem C48_expired_returns (i : Impl) {d : Int} {p q : List Ev} {dur n : Int} {pc : PC}
    (h : Exec (step i.shape d) (start i.shape) (p ++ .waited dur false :: .read n :: q) pc) (hn : d ≤ n) :
    q = [.ret false] ∧ pc = .done false := by
  obtain ⟨C, L⟩ := chained_exec h
  have W := waited_positive h
  -- what comes after the reading
  cases q with
  | nil =>
    cases pc with
    | trying => simp [Last] at L
    | first => simp only [Last] at L; rcases L with L | L <;> cases p <;> simp at L
    | body m =>
      obtain ⟨⟨pre, e, hm⟩, _⟩ := (inv_exec h).1
      have e' : (p ++ [.waited dur false]) ++ [.read n] = pre ++ [.read m] := by simpa using e
      have e1 := List.append_inj_left' e' rfl
      have e2 := List.append_inj_right' e' rfl
      cases e2
      rcases hm with hm | ⟨_, hm⟩
      · omega
      · rw [hm] at e1; simp at e1
    | again =>
      obtain ⟨p', dur', e⟩ := L
      have e' : (p ++ [.waited dur false]) ++ [.read n] = p' ++ [.waited dur' false] := by simpa using e
      cases List.append_inj_right' e' rfl
    | done r =>
      obtain ⟨p', e⟩ := L
      have e' : (p ++ [.waited dur false]) ++ [.read n] = p' ++ [.ret r] := by simpa using e
      cases List.append_inj_right' e' rfl
  | cons y q =>
    have F := C (p ++ [.waited dur false]) (.read n) y q (by simp)
    cases y with
    | tried r => cases r <;> exact F.elim
    | read m => exact F.elim
    | waited dur' r =>
      have F' : dur' = d - n := F
      rcases W (p ++ [.waited dur false, .read n]) dur' r q (by simp) with h | h
      · omega
      · simp at h
    | ret r =>
      obtain ⟨_, rfl⟩ : d ≤ n ∧ r = false := F
      cases q with
      | nil => exact ⟨rfl, no_ret (inv_exec h).1 false (by simp)⟩
      | cons z q =>
        have := C (p ++ [.waited dur false, .read n]) (.ret false) z q (by simp)
        cases z <;> exact this.elim

/-- The primitive fails early, the clock goes back, the second wait is longer than the first; then the deadline passes. -/
example : ∃ tr pc, Exec (step Impl.eventWindows.shape 10) (start Impl.eventWindows.shape) tr pc ∧
    tr = [.read 5, .waited 5 false, .read 3] ++ .waited 7 false :: .read 12 :: [.ret false] :=
  ⟨_, _, exec_of_run (ls := [.clock 5, .relative false, .clock 3, .relative false, .clock 12]) rfl, rfl⟩

/-- The clock may run backwards and the primitive may fail early any number of times. -/
example : ∃ tr pc, Exec (step Impl.semPosix.shape 10) (start Impl.semPosix.shape) tr pc ∧ Ev.ret false ∈ tr ∧ TimedOut 10 tr :=
  have h := exec_of_run (step := step Impl.semPosix.shape 10) (s := start Impl.semPosix.shape)
    (ls := [.clock 5, .relative false, .clock 3, .relative false, .clock 10]) rfl
  ⟨_, _, h, by decide, C48_timeout_only_after_deadline .semPosix h (by decide)⟩
example : ∃ tr pc, Exec (step Impl.timedMutexWindows.shape 10) (start Impl.timedMutexWindows.shape) tr pc ∧ Ev.ret true ∈ tr :=
  ⟨_, _, exec_of_run (ls := [.tryLock false, .clock 5, .relative false, .clock 9, .relative true]) rfl, by decide⟩

/-- If the resource is available, even an expired deadline does not prevent its acquisition.  Missing: the Mach semaphore
(`C49_refuted`). -/
theorem C49_available_acquired_partial (i : Impl) (ha : i.acquires) (hm : i ≠ .semMach) {d : Int} {tr : List Ev} {pc : PC}
    (h : Exec (step i.shape d) (start i.shape) tr pc) (hav : Available tr) : Ev.ret false ∉ tr := by
  intro hr
  have I := (inv_exec h).1
  rw [no_ret I false hr] at I
  rcases I.2.2 with hk | ⟨e, he, he' | ⟨dur, he'⟩⟩
  · cases i <;> first | (cases hk; done) | exact absurd rfl hm | exact ha
  · subst he'; exact hav.1 he
  · subst he'; exact hav.2 dur he

/-- Any call on any other implementation tries at least once before it times out. -/
theorem C49_tries_partial (i : Impl) (ha : i.acquires) (hm : i ≠ .semMach) {d : Int} {tr : List Ev} {pc : PC}
    (h : Exec (step i.shape d) (start i.shape) tr pc) (hr : Ev.ret false ∈ tr) :
    Ev.tried false ∈ tr ∨ ∃ dur, Ev.waited dur false ∈ tr := by
  have := mt (C49_available_acquired_partial i ha hm h) (not_not_intro hr)
  by_cases ht : Ev.tried false ∈ tr
  · exact .inl ht
  · by_cases hw : ∃ dur, Ev.waited dur false ∈ tr
    · exact .inr hw
    · exact absurd ⟨ht, fun dur hd => hw ⟨dur, hd⟩⟩ this

example : ∃ tr pc, Impl.acquires .timedMutexWindows ∧ Exec (step Impl.timedMutexWindows.shape 10) (start Impl.timedMutexWindows.shape) tr pc ∧ Ev.ret false ∈ tr :=
  ⟨_, _, by simp [Impl.acquires], exec_of_run (r := (_, _)) (ls := [.tryLock false, .clock 12]) rfl, by decide⟩

/-- On Mach every wait with an expired deadline fails without trying. -/
theorem C49_refuted (d n : Int) (hn : d ≤ n) :
    ∃ tr pc, Exec (step Impl.semMach.shape d) (start Impl.semMach.shape) tr pc ∧ tr = [.read n, .ret false] ∧ Available tr := by
  have hs : step Impl.semMach.shape d .first (.clock n) = some (.done false, [.read n, .ret false]) := by
    unfold step
    simp only [Impl.shape, reduceCtorEq, if_false, if_neg (show ¬ n < d by omega)]
  exact ⟨_, _, Exec.single hs, rfl, by simp [Available]⟩

example : ∃ tr pc, Exec (step Impl.autoEventFutex.shape 10) (start Impl.autoEventFutex.shape) tr pc ∧ Available tr ∧ Ev.ret true ∈ tr :=
  ⟨_, _, exec_of_run (ls := [.clock 500, .relative true]) rfl, by simp [Available], by decide⟩

/-- The loops of the form `while` wait only for positive durations. -/
theorem C45_user_clock_positive (i : Impl) (hk : i.shape ≠ .doWhile) {d : Int} {tr : List Ev} {pc : PC}
    (h : Exec (step i.shape d) (start i.shape) tr pc) {dur : Int} {r : Bool} (hw : Ev.waited dur r ∈ tr) : 0 < dur :=
  (inv_exec h).2 dur r hw hk

/-- A wait that begins 5 units before the deadline. -/
example : Impl.timedMutexWindows.shape ≠ .doWhile ∧ ∃ tr pc, Exec (step Impl.timedMutexWindows.shape 10) (start Impl.timedMutexWindows.shape) tr pc ∧
    Ev.waited 5 false ∈ tr :=
  ⟨by decide, _, _, exec_of_run (r := (_, _)) (ls := [.tryLock false, .clock 5, .relative false]) rfl, by decide⟩

/-- The loop of the form `do … while` passes negative durations on, which on POSIX (`C45_refuted`) means that a semaphore
wait whose deadline passed (by more than the nanoseconds of the current system time, with a user's clock counting
nanoseconds) waits at least 292 years for a post. -/
theorem C45_user_clock_refuted {now : Time.Timespec} {d n : Int} (hn : now.Normal) (hd : Time.InS64 (d - n))
    (h : now.nsec + (d - n) < 0) (hr : Time.Representable (now.ns + (d - n) + 2 ^ 64)) :
    ∃ tr, Exec (step Impl.semPosix.shape d) (start Impl.semPosix.shape) tr (.body n) ∧ tr = [.read n] ∧
      ∃ dur r, Time.ofChrono 1000000000 1 1000000000 (d - n) = some dur ∧ Time.request .posix now dur = some r ∧ r.blocks now ≥ 2 ^ 63 := by
  refine ⟨_, Exec.single (l := .clock n) rfl, rfl, d - n, ?_⟩
  obtain ⟨r, h1, h2⟩ := Time.C45_refuted hn hd h hr
  refine ⟨r, ?_, h1, h2⟩
  have hd' : Time.InS64 ((d - n) * ((1 * 1000000000 / Nat.gcd (1 * 1000000000) 1000000000 : Nat) : Int)) := by
    simpa using hd
  simp only [Time.ofChrono, Time.signed, hd', if_true, Option.bind_eq_bind, Option.bind_some, Option.pure_def]
  simp

end Verif.UserClock
