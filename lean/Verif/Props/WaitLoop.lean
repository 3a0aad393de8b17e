import Verif.Spec.WaitLoop

/-! # C50, C51: how long relative waits block -/

namespace Verif.WaitLoop

theorem blocked_append (a b : List Ev) : blocked (a ++ b) = blocked a + blocked b := by
  induction a with
  | nil => simp [blocked]
  | cons e a ih => cases e <;> simp only [List.cons_append, blocked, ih] <;> omega

theorem waitedOut_append (a b : List Ev) : waitedOut (a ++ b) = waitedOut a + waitedOut b := by
  induction a with
  | nil => simp [waitedOut]
  | cons e a ih =>
    cases e with
    | wait r e t => cases t <;> simp only [List.cons_append, waitedOut, ih] <;> omega
    | _ => simp only [List.cons_append, waitedOut, ih]

theorem wakeups_append (a b : List Ev) : wakeups (a ++ b) = wakeups a + wakeups b := by
  induction a with
  | nil => simp [wakeups]
  | cons e a ih =>
    cases e with
    | wait r e t => cases t <;> simp only [List.cons_append, wakeups, ih] <;> omega
    | _ => simp only [List.cons_append, wakeups, ih]

theorem timeouts_append (a b : List Ev) : timeouts (a ++ b) = timeouts a + timeouts b := by
  induction a with
  | nil => simp [timeouts]
  | cons e a ih =>
    cases e with
    | wait r e t => cases t <;> simp only [List.cons_append, timeouts, ih] <;> omega
    | _ => simp only [List.cons_append, timeouts, ih]

def Kind.chunked (k : Kind) : Prop := k = .chunks ∨ k = .chunksRetry

/-- An operation that does not enter its loop does nothing. -/
theorem not_entered {k : Kind} {T : Int} (hk : enters k T = false) {tr : List Ev} {s : St}
    (h : Exec (step k T) (start k T) tr s) : tr = [] ∧ s = start k T := by
  refine h.invariant (fun tr s => tr = [] ∧ s = start k T) ⟨rfl, rfl⟩ ?_
  rintro tr s a s' es ⟨rfl, rfl⟩ hs
  simp [step, start, hk] at hs

/-! ## C50 -/

structure Chunks (k : Kind) (T : Int) (tr : List Ev) (s : St) : Prop where
  left : 0 ≤ s.left
  pos : s.result = none → 0 < s.left ∨ k = .chunks ∧ T ≤ 0
  finite : ∀ r e t, Ev.wait r e t ∈ tr → 0 ≤ r ∧ r ≤ maxNonInfiniteWait ∧ 0 ≤ e ∧ e ≤ r
  sum : waitedOut tr + s.left = atLeast0 T
  ended : s.result = none → (∀ r, Ev.ret r ∉ tr)
  zero : Ev.ret false ∈ tr → s.left = 0
  count : s.result = none → (timeouts tr : Int) * maxNonInfiniteWait = waitedOut tr
  last : ((timeouts tr : Int) - 1) * maxNonInfiniteWait ≤ waitedOut tr

theorem chunks_exec {k : Kind} (hk : k.chunked) {T : Int} (he : enters k T = true) {tr : List Ev} {s : St}
    (h : Exec (step k T) (start k T) tr s) : Chunks k T tr s := by
  refine h.invariant (Chunks k T) ?_ ?_
  · rcases hk with rfl | rfl
    · constructor <;> simp [start, waitedOut, atLeast0, timeouts, maxNonInfiniteWait] <;> (try split) <;> (try omega)
    · simp only [enters, decide_eq_true_eq] at he
      constructor <;> simp [start, enters, waitedOut, atLeast0, timeouts, maxNonInfiniteWait] <;> omega
  · intro tr s a s' es I hs
    obtain ⟨hl, I2, I3, I4, I5, I6, I7, I8⟩ := I
    unfold step at hs
    split at hs
    · cases hs
    · next hres =>
      have hr : request k T s = if s.left > maxNonInfiniteWait then maxNonInfiniteWait else s.left := by
        rcases hk with rfl | rfl <;> rfl
      have hr0 : 0 ≤ request k T s ∧ request k T s ≤ maxNonInfiniteWait ∧ request k T s ≤ s.left := by
        rw [hr]; unfold maxNonInfiniteWait; split <;> omega
      have hM : s.left > request k T s → request k T s = maxNonInfiniteWait := by
        rw [hr]; split <;> omega
      have hP := I2 hres
      have hC := I7 hres
      have hE := I5 hres
      generalize request k T s = r at hs hr0 hM
      have fin : ∀ e t es', (∀ r e t, Ev.wait r e t ∉ es') → 0 ≤ e → e ≤ r → ∀ r' e' t', Ev.wait r' e' t' ∈ tr ++ Ev.wait r e t :: es' →
          0 ≤ r' ∧ r' ≤ maxNonInfiniteWait ∧ 0 ≤ e' ∧ e' ≤ r' := by
        intro e t es' hes h1 h2 r' e' t' hm
        rw [List.mem_append, List.mem_cons] at hm
        rcases hm with hm | hm | hm
        · exact I3 _ _ _ hm
        · cases hm; omega
        · exact absurd hm (hes _ _ _)
      have hz : Ev.ret false ∈ tr → False := fun h => hE _ h
      unfold maxNonInfiniteWait at *
      cases a with
      | delay d =>
        cases hs
        constructor <;> simp only [List.append_nil] <;> assumption
      | timeout ok =>
        have cont : s.left - r > 0 → Chunks k T (tr ++ [.wait r r true]) { s with left := s.left - r, clock := s.clock + r } := by
          intro hgt
          have := hM (by omega)
          constructor <;> simp only [waitedOut_append, timeouts_append, waitedOut, timeouts, List.mem_append, List.mem_singleton, reduceCtorEq, or_false, maxNonInfiniteWait] <;> try (first | omega | assumption)
          · simpa only [List.mem_append, List.mem_singleton] using fin r true [] (by simp) hr0.1 (Int.le_refl _)
          · intro h; exact absurd h hz
        have stop : ∀ b, ¬ s.left - r > 0 → Chunks k T (tr ++ [.wait r r true, .ret b]) ⟨some b, s.left - r, s.clock + r⟩ := by
          intro b hle
          constructor <;> simp only [waitedOut_append, timeouts_append, waitedOut, timeouts, reduceCtorEq, maxNonInfiniteWait, false_imp_iff] <;> try (first | omega | assumption)
          · exact fin r true [.ret b] (by simp) hr0.1 (Int.le_refl _)
        rcases hk with rfl | rfl <;> simp only at hs
        · split at hs <;> cases hs
          · exact cont (by assumption)
          · exact stop _ (by assumption)
        · split at hs <;> cases hs
          · exact cont (by assumption)
          · exact stop _ (by assumption)
      | woken e ok =>
        simp only at hs
        split at hs
        · next hb =>
          split at hs
          · cases hs
            constructor <;> simp only [waitedOut_append, timeouts_append, waitedOut, timeouts, reduceCtorEq, maxNonInfiniteWait, false_imp_iff] <;> try (first | omega | assumption)
            · exact fin e false [.ret true] (by simp) hb.1 hb.2
            · intro h
              simp only [List.mem_append, List.mem_cons, reduceCtorEq, Ev.ret.injEq, Bool.false_eq_true, List.not_mem_nil, or_false] at h
              exact absurd h hz
          · split at hs
            · cases hs
            · cases hs
              constructor <;> simp only [waitedOut_append, timeouts_append, waitedOut, timeouts, List.mem_append, List.mem_singleton, reduceCtorEq, or_false, maxNonInfiniteWait] <;> try (first | omega | assumption)
              · simpa only [List.mem_append, List.mem_singleton] using fin e false [] (by simp) hb.1 hb.2
        · cases hs
      | fail e =>
        simp only at hs
        split at hs
        · next hb =>
          cases hs
          constructor <;> simp only [waitedOut_append, timeouts_append, waitedOut, timeouts, reduceCtorEq, maxNonInfiniteWait, false_imp_iff] <;> try (first | omega | assumption)
          · exact fin e false [.threw] (by simp) hb.1 hb.2
          · intro h
            simp only [List.mem_append, List.mem_cons, reduceCtorEq, List.not_mem_nil, or_false] at h
            exact absurd h hz
        · cases hs

/-- No chunk is `INFINITE` (or negative). -/
theorem C50_chunks_finite {k : Kind} (hk : k.chunked) {T : Int} {tr : List Ev} {s : St} (h : Exec (step k T) (start k T) tr s)
    {r e : Int} {t : Bool} (hw : Ev.wait r e t ∈ tr) : 0 ≤ r ∧ r < INFINITE := by
  cases he : enters k T with
  | false => rw [(not_entered he h).1] at hw; cases hw
  | true =>
    have := (chunks_exec hk he h).finite _ _ _ hw
    unfold maxNonInfiniteWait at this
    unfold INFINITE
    omega

/-- When the operation reports a time-out, the waits that timed out add up to exactly the requested time. -/
theorem C50_chunks_add_up {k : Kind} (hk : k.chunked) {T : Int} {tr : List Ev} {s : St} (h : Exec (step k T) (start k T) tr s)
    (hr : Ev.ret false ∈ tr) : waitedOut tr = atLeast0 T := by
  cases he : enters k T with
  | false => rw [(not_entered he h).1] at hr; cases hr
  | true =>
    have I := chunks_exec hk he h
    have := I.sum
    have := I.zero hr
    omega

/-- At any time they do not exceed it. -/
theorem C50_never_more {k : Kind} (hk : k.chunked) {T : Int} {tr : List Ev} {s : St} (h : Exec (step k T) (start k T) tr s) :
    waitedOut tr ≤ atLeast0 T := by
  cases he : enters k T with
  | false => rw [(not_entered he h).1]; unfold atLeast0 waitedOut; split <;> omega
  | true =>
    have I := chunks_exec hk he h
    have := I.sum
    have := I.left
    omega

/-- The loop terminates: it performs at most one timed-out wait more than there are full chunks in the time. -/
theorem C50_terminates {k : Kind} (hk : k.chunked) {T : Int} {tr : List Ev} {s : St} (h : Exec (step k T) (start k T) tr s) :
    (timeouts tr : Int) ≤ atLeast0 T / maxNonInfiniteWait + 1 := by
  have hm := C50_never_more hk h
  cases he : enters k T with
  | false =>
    rw [(not_entered he h).1]
    have : 0 ≤ atLeast0 T := by unfold atLeast0; split <;> omega
    have := Int.ediv_nonneg this (show 0 ≤ maxNonInfiniteWait by decide)
    simp only [timeouts]
    omega
  | true =>
    have := (chunks_exec hk he h).last
    unfold maxNonInfiniteWait at *
    omega

/-- A non-positive time performs no wait on the mutex and the condition variable … -/
theorem C50_non_positive_no_wait {T : Int} (hT : T ≤ 0) {tr : List Ev} {s : St}
    (h : Exec (step .chunksRetry T) (start .chunksRetry T) tr s) : tr = [] ∧ s.result = some false := by
  have he : enters .chunksRetry T = false := by simp [enters]; omega
  obtain ⟨h1, h2⟩ := not_entered he h
  exact ⟨h1, by rw [h2]; simp [start, he]⟩

/-- … and only waits with timeout zero, that is, polls, on events and semaphores. -/
theorem C50_non_positive_polls {T : Int} (hT : T ≤ 0) {tr : List Ev} {s : St}
    (h : Exec (step .chunks T) (start .chunks T) tr s) {r e : Int} {t : Bool} (hw : Ev.wait r e t ∈ tr) : r = 0 := by
  have key : s.left = 0 ∧ ∀ r e t, Ev.wait r e t ∈ tr → r = 0 := by
    refine h.invariant (fun tr s => s.left = 0 ∧ ∀ r e t, Ev.wait r e t ∈ tr → r = 0) ?_ ?_
    · refine ⟨?_, by simp⟩
      simp only [start, true_and]
      split <;> omega
    · intro tr s a s' es I hs
      obtain ⟨I1, I2⟩ := I
      have hr : request .chunks T s = 0 := by simp [request, I1, maxNonInfiniteWait]
      have ext : ∀ es', (∀ r e t, Ev.wait r e t ∈ es' → r = 0) → ∀ r e t, Ev.wait r e t ∈ tr ++ es' → r = 0 := by
        intro es' h r e t hm
        rw [List.mem_append] at hm
        rcases hm with hm | hm
        · exact I2 _ _ _ hm
        · exact h _ _ _ hm
      unfold step at hs
      split at hs
      · cases hs
      · rw [hr] at hs
        cases a with
        | delay d => cases hs; exact ⟨I1, ext _ (by simp)⟩
        | timeout ok =>
          simp only [I1] at hs
          cases hs
          exact ⟨rfl, ext _ (by simp)⟩
        | woken e ok =>
          simp only at hs
          split at hs
          · split at hs
            · cases hs
              exact ⟨I1, ext _ (by simp)⟩
            · cases hs
          · cases hs
        | fail e =>
          simp only at hs
          split at hs
          · cases hs
            exact ⟨I1, ext _ (by simp)⟩
          · cases hs
  exact key.2 _ _ _ hw

/-- 10^10 ms take three chunks. -/
example : ∃ tr s, Exec (step .chunks 10000000000) (start .chunks 10000000000) tr s ∧ Ev.ret false ∈ tr ∧ timeouts tr = 3 ∧
    waitedOut tr = 10000000000 :=
  ⟨_, _, exec_of_run (ls := [.timeout false, .timeout false, .timeout false]) rfl, by decide, by decide, by decide⟩

/-! ## C51 -/

/-- With a fixed deadline, and on Windows events and semaphores, a relative wait is never blocked for longer than requested.
Missing: the other implementations (`C51_refuted`). -/
theorem C51_bounded_partial {k : Kind} (hk : k = .deadline ∨ k = .chunks) {T : Int} {tr : List Ev} {s : St}
    (h : Exec (step k T) (start k T) tr s) : blocked tr ≤ atLeast0 T := by
  rcases hk with rfl | rfl
  · have key : 0 ≤ blocked tr ∧ blocked tr ≤ s.clock ∧ blocked tr ≤ atLeast0 T := by
      refine h.invariant (fun tr s => 0 ≤ blocked tr ∧ blocked tr ≤ s.clock ∧ blocked tr ≤ atLeast0 T) ?_ ?_
      · unfold atLeast0 start blocked; simp only; split <;> omega
      · intro tr s a s' es I hs
        have hr : request .deadline T s = if T - s.clock < 0 then 0 else T - s.clock := rfl
        have hb : ∀ e, e ≤ request .deadline T s → blocked tr + e ≤ atLeast0 T := by
          intro e; rw [hr]; unfold atLeast0 at *; split <;> split <;> omega
        have hr0 : 0 ≤ request .deadline T s := by rw [hr]; split <;> omega
        unfold step at hs
        split at hs
        · cases hs
        · cases a with
          | delay d => cases hs; simp only [List.append_nil]; omega
          | timeout ok =>
            simp only at hs
            cases hs
            have := hb _ (Int.le_refl _)
            simp only [blocked_append, blocked]
            omega
          | woken e ok =>
            simp only at hs
            split at hs
            · next he =>
              have := hb _ he.2
              split at hs <;> (cases hs; simp only [blocked_append, blocked]; omega)
            · cases hs
          | fail e =>
            simp only at hs
            split at hs
            · next he =>
              have := hb _ he.2
              cases hs; simp only [blocked_append, blocked]; omega
            · cases hs
    exact key.2.2
  · have key : (s.result = none → blocked tr + s.left = atLeast0 T) ∧ blocked tr ≤ atLeast0 T := by
      refine h.invariant (fun tr s => (s.result = none → blocked tr + s.left = atLeast0 T) ∧ blocked tr ≤ atLeast0 T) ?_ ?_
      · unfold atLeast0 start blocked; simp only [enters, true_and]; constructor
        · intro _; split <;> omega
        · split <;> omega
      · intro tr s a s' es I hs
        obtain ⟨I1, I2⟩ := I
        have hr : request .chunks T s ≤ s.left := by unfold request; simp only; split <;> omega
        unfold step at hs
        split at hs
        · cases hs
        · next hres =>
          have := I1 hres
          cases a with
          | delay d => cases hs; simp only [List.append_nil]; exact ⟨fun _ => this, I2⟩
          | timeout ok =>
            simp only at hs
            split at hs <;> cases hs <;>
              exact ⟨by simp only [blocked_append, blocked, reduceCtorEq, false_imp_iff] <;> omega, by simp only [blocked_append, blocked]; omega⟩
          | woken e ok =>
            simp only at hs
            split at hs
            · next he =>
              split at hs
              · cases hs; exact ⟨by simp, by simp only [blocked_append, blocked]; omega⟩
              · cases hs
            · cases hs
          | fail e =>
            simp only at hs
            split at hs
            · next he => cases hs; exact ⟨by simp, by simp only [blocked_append, blocked]; omega⟩
            · cases hs
    exact key.2

theorem clock_nonneg {k : Kind} {T : Int} {tr : List Ev} {s : St} (h : Exec (step k T) (start k T) tr s) (hk : k = .deadline := by rfl) :
    0 ≤ s.clock := by
  subst hk
  refine h.invariant' (fun s => 0 ≤ s.clock) (by simp [start]) ?_
  intro s a s' es I hs
  have hr0 : 0 ≤ request .deadline T s := by unfold request; simp only; split <;> omega
  unfold step at hs
  split at hs
  · cases hs
  · cases a <;> simp only at hs <;> (try split at hs) <;> (try split at hs) <;> cases hs <;> simp only <;> omega

/-- Loops that do not split the wait time out at most once. -/
theorem waited_once {k : Kind} (hk : k = .deadline ∨ k = .restart) {T : Int} {tr : List Ev} {s : St}
    (h : Exec (step k T) (start k T) tr s) : waitedOut tr ≤ atLeast0 T := by
  have h0 : 0 ≤ atLeast0 T := by unfold atLeast0; split <;> omega
  have hle : T ≤ atLeast0 T := by unfold atLeast0; split <;> omega
  have key : waitedOut tr ≤ atLeast0 T ∧ (s.result = none → waitedOut tr = 0) := by
    induction h with
    | init => simp [waitedOut, h0]
    | @snoc tr s s' a es hx hs ih =>
      have hrq : request k T s ≤ atLeast0 T := by
        rcases hk with rfl | rfl
        · have hc : 0 ≤ s.clock := clock_nonneg hx
          unfold request atLeast0; simp only; split <;> split <;> omega
        · exact hle
      unfold step at hs
      split at hs
      · cases hs
      · next hres =>
        have := ih.2 hres
        cases a with
        | delay d => cases hs; simpa using ih
        | timeout ok =>
          rcases hk with rfl | rfl <;> simp only at hs <;> cases hs <;>
            exact ⟨by simp only [waitedOut_append, waitedOut]; omega, by simp⟩
        | woken e ok =>
          simp only at hs
          split at hs
          · split at hs
            · cases hs; exact ⟨by simp only [waitedOut_append, waitedOut]; omega, by simp⟩
            · rcases hk with rfl | rfl <;> simp only at hs <;> cases hs <;>
                exact ⟨by simp only [waitedOut_append, waitedOut]; omega, by simp only [waitedOut_append, waitedOut]; omega⟩
          · cases hs
        | fail e =>
          simp only at hs
          split at hs
          · cases hs; exact ⟨by simp only [waitedOut_append, waitedOut]; omega, by simp⟩
          · cases hs
  exact key.1

theorem waitedOut_nonneg {tr : List Ev} (h : ∀ r e t, Ev.wait r e t ∈ tr → 0 ≤ r) : 0 ≤ waitedOut tr := by
  induction tr with
  | nil => simp [waitedOut]
  | cons e tr ih =>
    have := ih (fun r e t hm => h r e t (List.mem_cons_of_mem _ hm))
    cases e with
    | wait r e t =>
      have := h r e t List.mem_cons_self
      cases t <;> simp only [waitedOut] <;> omega
    | _ => simpa only [waitedOut] using this

theorem C50_waited_nonneg {k : Kind} (hk : k.chunked) {T : Int} {tr : List Ev} {s : St}
    (h : Exec (step k T) (start k T) tr s) : 0 ≤ waitedOut tr :=
  waitedOut_nonneg (fun _ _ _ hm => (C50_chunks_finite hk h hm).1)

/-- For all kinds: the bound grows by one timeout with each wake-up. -/
theorem C51_per_wakeup_partial {k : Kind} {T : Int} {tr : List Ev} {s : St} (h : Exec (step k T) (start k T) tr s) :
    blocked tr ≤ ((wakeups tr : Int) + 1) * atLeast0 T := by
  have h0 : 0 ≤ atLeast0 T := by unfold atLeast0; split <;> omega
  have hle : T ≤ atLeast0 T := by unfold atLeast0; split <;> omega
  have hsum : blocked tr ≤ (wakeups tr : Int) * atLeast0 T + waitedOut tr := by
    induction h with
    | init => simp [blocked, wakeups, waitedOut]
    | @snoc tr s s' a es hx hs ih =>
      have hreq : s.result = none → request k T s ≤ atLeast0 T := by
        intro hres
        cases k with
        | deadline =>
          have hc : 0 ≤ s.clock := clock_nonneg hx
          unfold request atLeast0; simp only; split <;> split <;> omega
        | restart => exact hle
        | chunks =>
          have I := chunks_exec (.inl rfl) rfl hx
          have h1 := I.sum
          have h2 := C50_waited_nonneg (.inl rfl) hx
          unfold request; simp only; split <;> omega
        | chunksRetry =>
          cases he : enters .chunksRetry T with
          | false => rw [(not_entered he hx).2] at hres; simp [start, he] at hres
          | true =>
            have I := chunks_exec (.inr rfl) he hx
            have h1 := I.sum
            have h2 := C50_waited_nonneg (.inr rfl) hx
            unfold request; simp only; split <;> omega
      unfold step at hs
      split at hs
      · cases hs
      · next hres =>
        have hrq := hreq hres
        generalize request k T s = r at hs hrq
        cases a with
        | delay d => cases hs; simpa using ih
        | timeout ok =>
          have e1 : ∀ es', (es' = [] ∨ ∃ b, es' = [Ev.ret b]) → blocked (tr ++ Ev.wait r r true :: es') ≤
              (wakeups (tr ++ Ev.wait r r true :: es') : Int) * atLeast0 T + waitedOut (tr ++ Ev.wait r r true :: es') := by
            rintro es' (rfl | ⟨b, rfl⟩) <;>
              simp only [blocked_append, blocked, wakeups_append, wakeups, waitedOut_append, waitedOut, Nat.add_zero] <;> omega
          cases k <;> simp only at hs <;> (try split at hs) <;> cases hs <;>
            first | exact e1 _ (.inl rfl) | exact e1 _ (.inr ⟨_, rfl⟩)
        | woken e ok =>
          have e1 : e ≤ r → ∀ es', (es' = [] ∨ ∃ b, es' = [Ev.ret b]) → blocked (tr ++ Ev.wait r e false :: es') ≤
              (wakeups (tr ++ Ev.wait r e false :: es') : Int) * atLeast0 T + waitedOut (tr ++ Ev.wait r e false :: es') := by
            rintro h1 es' (rfl | ⟨b, rfl⟩) <;>
              simp only [blocked_append, blocked, wakeups_append, wakeups, waitedOut_append, waitedOut, Nat.zero_add, Int.natCast_add,
                Int.add_mul, Int.natCast_one, Int.one_mul] <;> omega
          simp only at hs
          split at hs
          · next hb =>
            split at hs
            · cases hs; exact e1 hb.2 _ (.inr ⟨_, rfl⟩)
            · split at hs
              · cases hs
              · cases hs; exact e1 hb.2 _ (.inl rfl)
          · cases hs
        | fail e =>
          simp only at hs
          split at hs
          · next hb =>
            cases hs
            simp only [blocked_append, blocked, wakeups_append, wakeups, waitedOut_append, waitedOut, Nat.zero_add, Int.natCast_add,
                Int.add_mul, Int.natCast_one, Int.one_mul]
            omega
          · cases hs
  have hw : waitedOut tr ≤ atLeast0 T := by
    cases k with
    | chunks => exact C50_never_more (.inl rfl) h
    | chunksRetry => exact C50_never_more (.inr rfl) h
    | deadline => exact waited_once (.inl rfl) h
    | restart => exact waited_once (.inr rfl) h
  rw [Int.add_mul, Int.one_mul]
  omega

/-- The events on futexes, the emulations, the mutex and the condition variable on Windows can be blocked for any multiple of
the requested time without ever being successful: each wake-up without success starts the wait (or its current chunk)
anew. -/
theorem C51_refuted {k : Kind} (hk : k = .restart ∨ k = .chunksRetry) {T : Int} (hT : 0 < T) (B : Nat) :
    ∃ tr s, Exec (step k T) (start k T) tr s ∧ (B : Int) ≤ blocked tr ∧ ∀ e ∈ tr, ∃ r e', e = .wait r e' false := by
  have key : ∃ tr s, Exec (step k T) (start k T) tr s ∧ s.result = none ∧ s.left = T ∧ (B : Int) ≤ blocked tr ∧
      ∀ e ∈ tr, ∃ r e', e = .wait r e' false := by
    induction B with
    | zero =>
      refine ⟨[], _, Exec.init, ?_, ?_, by simp [blocked], by simp⟩
      · rcases hk with rfl | rfl <;> simp [start, enters, hT]
      · rcases hk with rfl | rfl <;> simp [start]
    | succ n ih =>
      obtain ⟨tr, s, hx, h1, h2, h3, h4⟩ := ih
      have hr : 1 ≤ request k T s := by
        rcases hk with rfl | rfl
        · exact hT
        · unfold request maxNonInfiniteWait; simp only; split <;> omega
      refine ⟨_, _, Exec.snoc (l := .woken (request k T s) false) (s' := { s with clock := s.clock + request k T s })
        (es := [.wait (request k T s) (request k T s) false]) hx ?_, h1, h2, ?_, ?_⟩
      · have hb : 0 ≤ request k T s ∧ request k T s ≤ request k T s := ⟨by omega, Int.le_refl _⟩
        rcases hk with rfl | rfl <;> simp only [step, h1, hb, and_self, if_true, Bool.false_eq_true, if_false]
      · rw [blocked_append]; simp only [blocked]; omega
      · intro e he
        rw [List.mem_append, List.mem_singleton] at he
        rcases he with he | rfl
        · exact h4 e he
        · exact ⟨_, _, rfl⟩
  obtain ⟨tr, s, h1, _, _, h2, h3⟩ := key
  exact ⟨tr, s, h1, h2, h3⟩

example : ∃ tr s, Exec (step .deadline 100) (start .deadline 100) tr s ∧ wakeups tr = 2 ∧ blocked tr = 93 :=
  ⟨_, _, exec_of_run (ls := [.woken 40 false, .delay 7, .woken 50 false, .timeout false]) rfl, by decide, by decide⟩

end Verif.WaitLoop
