import Verif.Proof.PredLoops

/-! # Predicate overloads of the condition variables (C41, C42) -/

namespace Verif.PredLoop

/-- C41.  Every overload returns exactly the value of the predicate evaluated last, and evaluates nothing afterwards. -/
theorem C41_returns_last_predicate (o : Overload) (tr : List Ev) (pc : PC) (h : Exec (step o) o.init tr pc) (b : Bool)
    (hb : Ev.ret b ∈ tr) : lastPred tr = some b ∧ ∃ pre, tr = pre ++ [.pred b, .ret b] := by
  obtain ⟨_, ⟨pre, hp⟩, _⟩ := (inv_exec h).1 b hb
  exact ⟨by rw [hp, lastPred_append]; rfl, pre, hp⟩

/-- C41.  The result false is given only when the last wait timed out and the predicate was false after that. -/
theorem C41_false_after_timeout (o : Overload) (tr : List Ev) (pc : PC) (h : Exec (step o) o.init tr pc)
    (hb : Ev.ret false ∈ tr) : ∃ pre, tr = pre ++ [.timedOut, .pred false, .ret false] :=
  ((inv_exec h).1 false hb).2.2 rfl

/-- C41.  `wait(lock, pred)` returns only when the predicate is true. -/
theorem C41_untimed_true (tr : List Ev) (pc : PC) (h : Exec (step .untimed) (Overload.init .untimed) tr pc) :
    Ev.ret false ∉ tr := by
  have hno : pc ≠ .last ∧ Ev.timedOut ∉ tr ∧ ∀ l, pc = .sleep l ∨ pc = .test l → l = none := by
    refine h.invariant (fun tr pc => pc ≠ .last ∧ Ev.timedOut ∉ tr ∧ ∀ l, pc = .sleep l ∨ pc = .test l → l = none)
      (by simp [Overload.init]) ?_
    intro tr pc i pc' es ⟨h1, h2, h3⟩ hs
    unfold step at hs
    split at hs <;> (try simp only at hs) <;> (try cases hs) <;> simp_all
  intro hb
  obtain ⟨pre, hp⟩ := C41_false_after_timeout _ tr pc h hb
  exact hno.2.1 (by rw [hp]; simp)

/-- C41.  The call ends as soon as the predicate is found true. -/
theorem C41_true_ends (o : Overload) (tr : List Ev) (pc : PC) (h : Exec (step o) o.init tr pc) (pre post : List Ev)
    (hp : tr = pre ++ .pred true :: post) : post = [.ret true] := by
  have key : (∀ pre post, tr = pre ++ .pred true :: post → post = [.ret true]) ∧ (Ev.pred true ∈ tr → pc = .done) := by
    refine h.invariant (fun tr pc => (∀ pre post, tr = pre ++ .pred true :: post → post = [.ret true]) ∧
      (Ev.pred true ∈ tr → pc = .done)) ⟨by simp, by simp⟩ ?_
    intro tr pc i pc' es ⟨h1, h2⟩ hs
    have hnot : Ev.pred true ∉ tr := by
      intro hm
      rw [h2 hm] at hs
      unfold step at hs
      split at hs <;> first | contradiction | cases hs
    have hes : (∀ pre post, es = pre ++ .pred true :: post → post = [.ret true]) ∧ (Ev.pred true ∈ es → pc' = .done) := by
      unfold step at hs
      split at hs
      all_goals (repeat' split at hs)
      all_goals first
        | contradiction
        | skip
      all_goals
        simp only [Option.some.injEq, Prod.mk.injEq] at hs
        obtain ⟨rfl, rfl⟩ := hs
      all_goals first
        | (refine ⟨?_, by simp⟩
           intro pre post h
           have : Ev.pred true ∈ pre ++ Ev.pred true :: post := by simp
           rw [← h] at this
           simp at this; done)
        | skip
      · refine ⟨?_, fun _ => rfl⟩
        intro pre post h
        rcases pre with _ | ⟨a, _ | ⟨b, pre⟩⟩
        · simpa using h.symm
        · simp at h
        · simp at h
      · refine ⟨?_, fun _ => rfl⟩
        intro pre post h
        rcases pre with _ | ⟨a, _ | ⟨b, pre⟩⟩
        · simp only [List.nil_append, List.cons.injEq, Ev.pred.injEq] at h
          rw [← h.2, h.1]
        · simp at h
        · simp at h
    refine ⟨?_, ?_⟩
    · intro pre post h
      rcases List.append_eq_append_iff.mp h with ⟨a, rfl, ha⟩ | ⟨a, rfl, ha⟩
      · exact hes.1 a post ha
      · rcases a with _ | ⟨x, a⟩
        · exact hes.1 [] post (by simpa using ha.symm)
        · simp only [List.cons_append, List.cons.injEq] at ha
          rw [← ha.1] at hnot
          simp at hnot
    · intro hm
      rcases List.mem_append.mp hm with h | h
      · exact absurd h hnot
      · exact hes.2 h
  exact key.1 pre post hp

/-- C41.  A wait begins only when the predicate was found false just before (apart from reading the clock), and never
after a wait that timed out. -/
theorem C41_waits_when_false (o : Overload) (tr : List Ev) (pc : PC) (h : Exec (step o) o.init tr pc) (pre post : List Ev)
    (l : Option Int) (hp : tr = pre ++ .waits l :: post) : lastPred pre = some false ∧ Ev.timedOut ∉ pre := by
  have key : (∀ pre l post, tr = pre ++ .waits l :: post → lastPred pre = some false ∧ Ev.timedOut ∉ pre) ∧
      (Ev.timedOut ∈ tr → pc = .last ∨ pc = .done) ∧ (pc = .clock → lastPred tr = some false) := by
    refine h.invariant (fun tr pc =>
      (∀ pre l post, tr = pre ++ .waits l :: post → lastPred pre = some false ∧ Ev.timedOut ∉ pre) ∧
      (Ev.timedOut ∈ tr → pc = .last ∨ pc = .done) ∧ (pc = .clock → lastPred tr = some false))
      ⟨by simp, by simp, by cases o <;> simp [Overload.init]⟩ ?_
    intro tr pc i pc' es ⟨h1, h2, h3⟩ hs
    have glue : (∀ pre l post, es = pre ++ .waits l :: post → lastPred (tr ++ pre) = some false ∧ Ev.timedOut ∉ tr ++ pre) →
        ∀ pre l post, tr ++ es = pre ++ .waits l :: post → lastPred pre = some false ∧ Ev.timedOut ∉ pre := by
      intro hes pre l post h
      rcases List.append_eq_append_iff.mp h with ⟨a, rfl, ha⟩ | ⟨a, rfl, ha⟩
      · exact hes a l post ha
      · rcases a with _ | ⟨x, a⟩
        · have := hes [] l post (by simpa using ha.symm)
          simpa using this
        · simp only [List.cons_append, List.cons.injEq] at ha
          rw [← ha.1] at h1
          exact h1 pre l a rfl
    have quiet : (∀ l, Ev.waits l ∉ es) → ∀ pre l post, tr ++ es = pre ++ .waits l :: post →
        lastPred pre = some false ∧ Ev.timedOut ∉ pre := by
      intro hq
      refine glue ?_
      intro pre l post h
      exact absurd (by rw [h]; simp) (hq l)
    unfold step at hs
    split at hs
    all_goals (repeat' split at hs)
    all_goals first
      | contradiction
      | skip
    all_goals
      simp only [Option.some.injEq, Prod.mk.injEq] at hs
      obtain ⟨rfl, rfl⟩ := hs
    all_goals first
      | (refine ⟨quiet ?_, ?_, ?_⟩
         · simp; done
         · first | (simp; done) | (simpa using h2)
         · first | (simp; done) | (simp [lastPred_append]; done))
      | skip
    · refine ⟨glue ?_, by simpa using h2, by simp⟩
      intro pre l' post h
      rcases pre with _ | ⟨a, _ | ⟨b, pre⟩⟩
      · simp at h
      · simp only [List.cons_append, List.nil_append, List.cons.injEq] at h
        rw [← h.1]
        refine ⟨by simp [lastPred_append], ?_⟩
        simpa using h2
      · simp at h
    · refine ⟨glue ?_, by simpa using h2, by simp⟩
      intro pre l' post h
      rcases pre with _ | ⟨a, _ | ⟨b, pre⟩⟩
      · simp at h
      · simp only [List.cons_append, List.nil_append, List.cons.injEq] at h
        rw [← h.1]
        refine ⟨by simpa [lastPred_append] using h3, ?_⟩
        simpa using h2
      · simp at h
  exact key.1 pre l post hp

example : ∃ tr pc, Exec (step (.relOnce 10)) (Overload.init (.relOnce 10)) tr pc ∧
    tr = [.clock 5, .pred false, .waits (some 15), .woke, .pred false, .waits (some 15), .timedOut, .pred false,
      .ret false] :=
  ⟨_, _, exec_of_run (ls := [.now 5, .pred false, .woke, .pred false, .timedOut, .pred false]) rfl, rfl⟩

/-- C41.  Exceptions of the wait or of the predicate leave the call at once as exceptions, and only those do. -/
theorem C41_exceptions (o : Overload) (pc pc' : PC) (i : In) (es : List Ev)
    (hs : step o pc i = some (pc', es)) :
    (i = .predThrows ∨ i = .waitThrows → es = [.threw] ∧ ∀ j, step o pc' j = none) ∧
    (Ev.threw ∈ es → i = .predThrows ∨ i = .waitThrows) := by
  unfold step at hs
  split at hs
  all_goals (repeat' split at hs)
  all_goals first
    | contradiction
    | skip
  all_goals
    simp only [Option.some.injEq, Prod.mk.injEq] at hs
    obtain ⟨rfl, rfl⟩ := hs
  all_goals refine ⟨?_, ?_⟩ <;> simp [step]

/-- A wait with a deadline in its second round is interrupted by an exception. -/
example : ∃ tr pc pc' es, Exec (step (.absolute 5)) (Overload.init (.absolute 5)) tr pc ∧
    step (.absolute 5) pc .waitThrows = some (pc', es) :=
  ⟨_, _, _, _, exec_of_run (ls := [.pred false, .woke, .pred false]) rfl, rfl⟩

/-- C42, for condition_variable (both platforms) and condition_variable_any on Windows.  The relative overloads wait until
one deadline, computed once, however often they are woken. -/
theorem C42_one_timeout_partial (dur : Int) (tr : List Ev) (pc : PC)
    (h : Exec (step (.relOnce dur)) (Overload.init (.relOnce dur)) tr pc) : OneTimeout dur tr := by
  have hL := limits_exec (by intro d; simp) h
  intro l hl
  by_cases hp : pc = .start
  · rw [(hL.1 hp).1] at hl; cases hl
  · obtain ⟨L, ⟨c, hc, hd⟩, hw, _⟩ := hL.2 hp
    exact ⟨c, c + dur, hc, (hw l hl).trans hd, Int.le_refl _⟩

/-- C42.  With a time point every wait ends at that time point, on all platforms. -/
theorem C42_absolute (d : Int) (tr : List Ev) (pc : PC) (h : Exec (step (.absolute d)) (Overload.init (.absolute d)) tr pc)
    (l : Option Int) (hl : Ev.waits l ∈ tr) : l = some d := by
  have hL := limits_exec (by intro d; simp) h
  have hp : pc ≠ .start := by
    intro hp
    rw [(hL.1 hp).1] at hl; cases hl
  obtain ⟨L, hd, hw, _⟩ := hL.2 hp
  exact (hw l hl).trans hd

/-- Woken once without a reason, it waits again until the same time point; the same with a duration. -/
example : (∃ tr pc, Exec (step (.absolute 5)) (Overload.init (.absolute 5)) tr pc ∧ tr = [.pred false, .waits (some 5), .woke, .pred false, .waits (some 5)]) ∧
    ∃ tr pc, Exec (step (.relOnce 10)) (Overload.init (.relOnce 10)) tr pc ∧ tr = [.clock 5, .pred false, .waits (some 15), .woke, .pred false, .waits (some 15)] :=
  ⟨⟨_, _, exec_of_run (r := (_, _)) (ls := [.pred false, .woke, .pred false]) rfl, rfl⟩, _, _,
    exec_of_run (r := (_, _)) (ls := [.now 5, .pred false, .woke, .pred false]) rfl, rfl⟩

/-- C42 fails for the generic condition_variable_any (POSIX): for every bound there is a call with a positive duration
that, without ever timing out, begins a wait that ends later than the bound beyond its deadline. -/
theorem C42_refuted (dur : Int) (hd : 0 < dur) (bound : Nat) :
    ∃ tr pc c e, Exec (step (.relEach dur)) (Overload.init (.relEach dur)) tr pc ∧ firstClock tr = some c ∧
      Ev.waits (some e) ∈ tr ∧ c + dur + bound ≤ e ∧ ¬ OneTimeout dur tr := by
  obtain ⟨tr, l, hex, hf, hw⟩ := rounds_exec dur (bound + 1)
  have h1 : ((bound + 1 : Nat) : Int) * 1 ≤ ((bound + 1 : Nat) : Int) * dur :=
    Int.mul_le_mul_of_nonneg_left (by omega) (by omega)
  refine ⟨tr, _, 0, _, hex, hf, hw, by omega, ?_⟩
  intro h
  obtain ⟨c, e, hc, he, hle⟩ := h _ hw
  rw [hf] at hc
  cases hc
  cases he
  omega

end Verif.PredLoop
