import Verif.Props.WinMutex

/-! C10 and C12 for the Windows mutex: which calls may fail or throw, and that a call completes once the mutex is free. -/

namespace Verif.WinMutex

/-- The thread that reports the event. -/
def Ev.thread : Ev → Nat
  | .work t _ | .called t _ | .acquired t _ _ | .failed t _ | .threw t _ | .released t | .signalled t | .consumed t => t

/-- A step reports events of its own thread only and touches the program counter of its own thread only. -/
theorem step_local {s s' : St} {u : Nat} {a : Act} {es : List Ev} (hs : step s (u, a) = some (s', es)) :
    (∀ e ∈ es, e.thread = u) ∧ ∀ t, u ≠ t → s'.ths[t]? = s.ths[t]? := by
  unfold step at hs
  simp only at hs
  split at hs
  · cases hs
  split at hs
  all_goals (repeat' split at hs)
  all_goals first
    | contradiction
    | skip
  all_goals
    simp only [Option.some.injEq, Prod.mk.injEq] at hs
    obtain ⟨rfl, rfl⟩ := hs
  all_goals
    refine ⟨?_, fun t hu => by simp only; rw [get_set_ne hu]⟩
    intro e he
    first
    | (simp only [List.not_mem_nil] at he; done)
    | (rw [List.mem_singleton] at he; subst he; rfl)
    | (rw [List.mem_singleton] at he; subst he; split <;> rfl)
    | (split at he
       · rw [List.mem_singleton] at he; subst he; rfl
       · simp only [List.not_mem_nil] at he)

/-- The label is one by which the environment makes a call of thread `t` fail. -/
def Faulty (t : Nat) (l : Nat × Act) : Prop := l = (t, .expired) ∨ l = (t, .timeout) ∨ l = (t, .osFail)

/-- Inside a call of kind `k` that neither timed out nor is about to throw. -/
def PC.inCall (k : Kind) : PC → Prop
  | .tryBts k' => k' = k
  | .load k' | .mark k' _ | .evWait k' _ | .clr k' _ => k' = k ∧ k ≠ .tryOnly
  | _ => False

theorem inCall_step {s s' : St} {l : Nat × Act} {es : List Ev} {t : Nat} {th : Th} {k : Kind}
    (hs : step s l = some (s', es)) (ht : s.ths[t]? = some th) (hp : th.pc.inCall k) (hl : ¬ Faulty t l) :
    ((∃ th', s'.ths[t]? = some th' ∧ th'.pc.inCall k) ∧ (∀ e ∈ es, e.thread = t → e = .consumed t)) ∨
    (∃ p, es = [.acquired t k p]) ∨ (k = .tryOnly ∧ es = [.failed t k] ∧ isLocked s.word.val = true) := by
  obtain ⟨u, a⟩ := l
  by_cases hu : u = t
  · subst hu
    obtain ⟨pc, view⟩ := th
    simp only [step, ht] at hs
    split at hs
    all_goals (repeat' split at hs)
    all_goals first
      | contradiction
      | exact absurd (Or.inl rfl) hl
      | exact absurd (Or.inr (Or.inl rfl)) hl
      | exact absurd (Or.inr (Or.inr rfl)) hl
      | exact absurd hp id
      | skip
    all_goals
      simp only [Option.some.injEq, Prod.mk.injEq] at hs
      obtain ⟨rfl, rfl⟩ := hs
    all_goals first
      | exact Or.inl ⟨⟨_, get_set_self ht, hp⟩, fun e he => by simp only [List.not_mem_nil] at he⟩
      | exact Or.inl ⟨⟨_, get_set_self ht, hp⟩, fun e he _ => List.mem_singleton.mp he⟩
      | (obtain rfl := hp; exact Or.inr (Or.inl ⟨_, rfl⟩))
      | (obtain rfl := hp.1; exact Or.inr (Or.inl ⟨_, rfl⟩))
      | (obtain rfl := hp
         next hlk hk =>
         subst hk
         exact Or.inr (Or.inr ⟨rfl, rfl, hlk⟩))
      | (obtain rfl := hp
         next hlk hk =>
         exact Or.inl ⟨⟨_, get_set_self ht, rfl, hk⟩, fun e he => by simp only [List.not_mem_nil] at he⟩)
  · obtain ⟨h1, h2⟩ := step_local hs
    exact Or.inl ⟨⟨th, by rw [h2 t hu]; exact ht, hp⟩, fun e he hte => absurd ((h1 e he).symm.trans hte) hu⟩

/-! ### Which calls fail -/

/-- No exception is in flight and no deadline has passed. -/
def PC.clean : PC → Prop
  | .sub _ _ => False
  | _ => True

theorem clean_step {s s' : St} {l : Nat × Act} {es : List Ev} {t : Nat} {th : Th}
    (hs : step s l = some (s', es)) (ht : s.ths[t]? = some th) (hp : th.pc.clean) (hl : ¬ Faulty t l) :
    (∃ th', s'.ths[t]? = some th' ∧ th'.pc.clean) ∧
    ∀ k, Ev.threw t k ∉ es ∧ (Ev.failed t k ∈ es → k = .tryOnly) := by
  obtain ⟨u, a⟩ := l
  by_cases hu : u = t
  · subst hu
    obtain ⟨pc, view⟩ := th
    simp only [step, ht] at hs
    split at hs
    all_goals (repeat' split at hs)
    all_goals first
      | contradiction
      | exact absurd (Or.inl rfl) hl
      | exact absurd (Or.inr (Or.inl rfl)) hl
      | exact absurd (Or.inr (Or.inr rfl)) hl
      | exact absurd hp id
      | skip
    all_goals
      simp only [Option.some.injEq, Prod.mk.injEq] at hs
      obtain ⟨rfl, rfl⟩ := hs
    all_goals
      refine ⟨⟨_, get_set_self ht, trivial⟩, ?_⟩
      intro k
      constructor
      · simp
      · simp <;> (rintro rfl; assumption)
  · obtain ⟨h1, h2⟩ := step_local hs
    refine ⟨⟨th, by rw [h2 t hu]; exact ht, hp⟩, fun k => ⟨fun he => hu (h1 _ he).symm, fun he => absurd (h1 _ he).symm hu⟩⟩

/-- **C12.**  In a run in which the environment makes nothing fail for thread `t` (no deadline passes, no OS call fails),
`lock()` and the timed locks of `t` neither throw nor return false. -/
theorem C12_no_early_failure {s s' : St} {ls : List (Nat × Act)} {tr : List Ev} {t : Nat} {v : View}
    (ht : s.ths[t]? = some ⟨.idle, v⟩) (h : runFrom step s ls = some (s', tr)) (hno : ∀ l ∈ ls, ¬ Faulty t l)
    (k : Kind) : Ev.threw t k ∉ tr ∧ (Ev.failed t k ∈ tr → k = .tryOnly) := by
  have key : ∀ (ls : List (Nat × Act)) (s : St) (tr : List Ev) (th : Th), s.ths[t]? = some th → th.pc.clean →
      runFrom step s ls = some (s', tr) → (∀ l ∈ ls, ¬ Faulty t l) →
      Ev.threw t k ∉ tr ∧ (Ev.failed t k ∈ tr → k = .tryOnly) := by
    intro ls
    induction ls with
    | nil =>
      intro s tr th _ _ h _
      simp only [runFrom, Option.some.injEq, Prod.mk.injEq] at h
      rw [← h.2]
      simp
    | cons l ls ih =>
      intro s tr th ht hp h hno
      simp only [runFrom] at h
      split at h
      · contradiction
      next s1 es hs =>
      split at h
      · contradiction
      next s2 es' hr =>
      simp only [Option.some.injEq, Prod.mk.injEq] at h
      obtain ⟨rfl, rfl⟩ := h
      obtain ⟨⟨th', h3, h4⟩, h5⟩ := clean_step hs ht hp (hno l List.mem_cons_self)
      obtain ⟨h6, h7⟩ := ih s1 es' th' h3 h4 hr fun l hl => hno l (List.mem_cons_of_mem _ hl)
      rw [List.mem_append, List.mem_append, not_or]
      exact ⟨⟨(h5 k).1, h6⟩, fun h => h.elim (h5 k).2 h7⟩
  exact key ls s tr _ ht trivial h hno

/-- A timed lock that sleeps, is woken, finds the mutex taken, sleeps again and succeeds in the end. -/
example : ∃ s tr, runFrom step (init 3) [(1, .call .lock), (1, .go), (0, .call .timed), (0, .go), (0, .go), (0, .go),
    (1, .callUnlock), (1, .go), (1, .go), (1, .go), (2, .call .tryOnly), (2, .go), (0, .go), (0, .go), (0, .go),
    (2, .callUnlock), (2, .go), (2, .go), (2, .go), (0, .go), (0, .go)] = some (s, tr) ∧
    Ev.acquired 0 .timed .woken ∈ tr ∧ Ev.acquired 2 .tryOnly .fast ∈ tr :=
  ⟨_, _, rfl, by decide, by decide⟩

/-- Only a timed call returns because its time is over. -/
def PC.sane : PC → Prop
  | .sub k thr => k ≠ .tryOnly ∧ (thr = false → k = .timed)
  | .load k | .mark k _ | .evWait k _ | .clr k _ => k ≠ .tryOnly
  | _ => True

theorem sane_step {s s' : St} {l : Nat × Act} {es : List Ev} {t : Nat} {th : Th}
    (hs : step s l = some (s', es)) (ht : s.ths[t]? = some th) (hp : th.pc.sane) :
    ∃ th', s'.ths[t]? = some th' ∧ th'.pc.sane := by
  obtain ⟨u, a⟩ := l
  by_cases hu : u = t
  · subst hu
    obtain ⟨pc, view⟩ := th
    simp only [step, ht] at hs
    split at hs
    all_goals (repeat' split at hs)
    all_goals first
      | contradiction
      | skip
    all_goals
      simp only [Option.some.injEq, Prod.mk.injEq] at hs
      obtain ⟨rfl, rfl⟩ := hs
    all_goals first
      | exact ⟨_, get_set_self ht, trivial⟩
      | exact ⟨_, get_set_self ht, hp⟩
      | exact ⟨_, get_set_self ht, ‹¬ _›⟩
      | exact ⟨_, get_set_self ht, Kind.noConfusion, fun _ => rfl⟩
      | exact ⟨_, get_set_self ht, hp, Bool.noConfusion⟩
      | exact ⟨_, get_set_self ht, Kind.noConfusion⟩
  · obtain ⟨_, h2⟩ := step_local hs
    exact ⟨th, by rw [h2 t hu]; exact ht, hp⟩

theorem step_length {s s' : St} {l : Nat × Act} {es : List Ev} (hs : step s l = some (s', es)) :
    s'.ths.length = s.ths.length := by
  unfold step at hs
  simp only at hs
  split at hs
  · cases hs
  split at hs
  all_goals (repeat' split at hs)
  all_goals first
    | contradiction
    | (simp only [Option.some.injEq, Prod.mk.injEq] at hs; rw [← hs.1]; simp)

theorem sane_exec {n : Nat} {tr : List Ev} {s : St} (h : Exec step (init n) tr s) :
    ∀ (t : Nat) (th : Th), s.ths[t]? = some th → th.pc.sane := by
  induction h with
  | init => intro t th ht; rw [get_replicate ht]; trivial
  | @snoc tr s s' l es _ hs ih =>
    intro t th' ht'
    cases ht : s.ths[t]? with
    | none =>
      rw [List.getElem?_eq_none_iff, ← step_length hs] at ht
      rw [List.getElem?_eq_none_iff.mpr ht] at ht'
      cases ht'
    | some th =>
      obtain ⟨th'', h1, h2⟩ := sane_step hs ht (ih t th ht)
      rw [ht'] at h1
      cases h1
      exact h2

/-- **C12.**  What a return value means: `try_lock()` returns false only if somebody owns the mutex at that instant;
a call returns successfully only if nobody owns it; `lock()` never returns without owning the mutex; `try_lock()` never
throws. -/
theorem C12_return_values {n : Nat} (hn : n < 2 ^ 30) {tr es : List Ev} {s s' : St} {l : Nat × Act} {t : Nat}
    (h : Exec step (init n) tr s) (hs : step s l = some (s', es)) :
    (Ev.failed t .tryOnly ∈ es → ∃ u, holds tr u = true) ∧
    (∀ k p, Ev.acquired t k p ∈ es → ∀ u, holds tr u = false) ∧
    Ev.failed t .lock ∉ es ∧ Ev.threw t .tryOnly ∉ es := by
  have I := inv_exec hn h
  have A := agree_exec h
  have K := sane_exec h
  have locked : isLocked s.word.val = true → ∃ u, holds tr u = true := by
    intro hl
    have : 0 < s.ths.countP Th.owns := by
      rw [← I.lock]
      cases h0 : L s.word.val with
      | zero => rw [isLocked_false.mpr h0] at hl; cases hl
      | succ m => omega
    obtain ⟨i, x, hx, ho⟩ := exists_of_countP_pos this
    exact ⟨i, by rw [A i, hx]; exact ho⟩
  have free : ¬ isLocked s.word.val = true → ∀ u, holds tr u = false := by
    intro hl u
    cases hu : holds tr u with
    | false => rfl
    | true =>
      obtain ⟨x, hx, ho⟩ := A.get hu
      have := countP_pos_of_get hx ho
      rw [← I.lock, isLocked_false.mp (by simpa using hl)] at this
      omega
  obtain ⟨u, a⟩ := l
  unfold step at hs
  simp only at hs
  split at hs
  · cases hs
  next th ht =>
  have K := K _ _ ht
  split at hs
  all_goals (repeat' split at hs)
  all_goals first
    | contradiction
    | skip
  all_goals
    simp only [Option.some.injEq, Prod.mk.injEq] at hs
    obtain ⟨rfl, rfl⟩ := hs
  all_goals
    refine ⟨fun he => ?_, fun k p he => ?_, fun he => ?_, fun he => ?_⟩
  all_goals first
    | (simp only [List.not_mem_nil] at he; done)
    | (simp only [List.mem_singleton, reduceCtorEq] at he; done)
    | exact locked ‹_›
    | exact free ‹_›
    | skip
  · next hk => subst hk; simp at he
  · simp at he
  · simp at he
  · next hw hl => subst hw; exact free hl
  · next hw hl => subst hw; exact free hl
  · next hpc _ =>
    rw [hpc] at K
    simp only [List.mem_singleton, Ev.threw.injEq] at he
    exact K.1 he.2.symm
  · next hpc _ =>
    rw [hpc] at K
    simp only [List.mem_singleton, Ev.failed.injEq] at he
    exact absurd he.2.symm K.1
  · next hpc hthr =>
    rw [hpc] at K
    simp only [List.mem_singleton, Ev.failed.injEq] at he
    have := K.2 (by simpa using hthr)
    rw [← he.2] at this
    cases this

/-- A failing `try_lock()` and a successful one. -/
example : ∃ (tr es tr' es' : List Ev) (s s' s1 s1' : St),
    Exec step (init 2) tr s ∧ step s (1, .go) = some (s', es) ∧ Ev.failed 1 .tryOnly ∈ es ∧
    Exec step (init 2) tr' s1 ∧ step s1 (1, .go) = some (s1', es') ∧ Ev.acquired 1 .tryOnly .fast ∈ es' :=
  ⟨_, _, _, _, _, _, _, _, exec_of_run (ls := [(0, .call .lock), (0, .go), (1, .call .tryOnly)]) rfl, rfl, by decide,
    exec_of_run (ls := [(0, .call .lock), (1, .call .tryOnly)]) rfl, rfl, by decide⟩

/-! ### Calls complete -/

/-- Thread `t`, running alone, returns from its call of kind `k` owning the mutex. -/
def Acquires (s : St) (t : Nat) (k : Kind) (m : Nat) : Prop :=
  ∃ s' es p, runFrom step s (List.replicate m (t, .go)) = some (s', es) ∧ Ev.acquired t k p ∈ es

theorem Acquires.cons {s s1 : St} {t : Nat} {k : Kind} {m : Nat} {es : List Ev} (hs : step s (t, .go) = some (s1, es))
    (h : Acquires s1 t k m) : Acquires s t k (m + 1) := by
  obtain ⟨s', es', p, h1, h2⟩ := h
  exact ⟨s', es ++ es', p, by simp only [List.replicate, runFrom, hs, h1], List.mem_append_right _ h2⟩

theorem Acquires.last {s s1 : St} {t : Nat} {k : Kind} {p : Path}
    (hs : step s (t, .go) = some (s1, [.acquired t k p])) :
    Acquires s t k 1 :=
  ⟨s1, [.acquired t k p], p, by simp only [List.replicate, runFrom, hs]; rfl, List.mem_cons_self⟩

theorem acquires_clr {s : St} {t : Nat} {k : Kind} {old : UInt32} {v : View} (hl : L s.word.val = 0)
    (ht : s.ths[t]? = some ⟨.clr k old, v⟩) : ∃ m, m ≤ 2 ∧ Acquires s t k m := by
  have key : ∀ (s : St), L s.word.val = 0 → s.ths[t]? = some ⟨.clr k s.word.val, v⟩ → Acquires s t k 1 := by
    intro s hl ht
    exact Acquires.last (p := .woken)
      (by simp only [step, ht, isLocked_false.mpr hl, if_true, Bool.false_eq_true, if_false]; rfl)
  by_cases h : s.word.val = old
  · subst h; exact ⟨1, by omega, key s hl ht⟩
  · refine ⟨2, by omega, Acquires.cons (s1 := { s with ths := s.ths.set t ⟨.clr k s.word.val, v⟩ }) (es := []) ?_ ?_⟩
    · simp only [step, ht, if_neg h]
    · exact key _ hl (get_set_self ht)

theorem acquires_mark {s : St} {t : Nat} {k : Kind} {old : UInt32} {v : View} (hl : L s.word.val = 0)
    (ht : s.ths[t]? = some ⟨.mark k old, v⟩) : ∃ m, m ≤ 2 ∧ Acquires s t k m := by
  have key : ∀ (s : St), L s.word.val = 0 → s.ths[t]? = some ⟨.mark k s.word.val, v⟩ → Acquires s t k 1 := by
    intro s hl ht
    exact Acquires.last (p := .marked)
      (by simp only [step, ht, isLocked_false.mpr hl, if_true, Bool.false_eq_true, if_false]; rfl)
  by_cases h : s.word.val = old
  · subst h; exact ⟨1, by omega, key s hl ht⟩
  · refine ⟨2, by omega, Acquires.cons (s1 := { s with ths := s.ths.set t ⟨.mark k s.word.val, v⟩ }) (es := []) ?_ ?_⟩
    · simp only [step, ht, if_neg h]
    · exact key _ hl (get_set_self ht)

theorem inCall_run {t : Nat} {k : Kind} : ∀ (ls : List (Nat × Act)) (s s' : St) (tr : List Ev) (th : Th),
    s.ths[t]? = some th → th.pc.inCall k → runFrom step s ls = some (s', tr) → (∀ l ∈ ls, ¬ Faulty t l) →
    (∀ p, Ev.acquired t k p ∉ tr) → Ev.failed t k ∉ tr → ∃ th', s'.ths[t]? = some th' ∧ th'.pc.inCall k := by
  intro ls
  induction ls with
  | nil =>
    intro s s' tr th ht hp h _ _ _
    simp only [runFrom, Option.some.injEq, Prod.mk.injEq] at h
    rw [← h.1]
    exact ⟨th, ht, hp⟩
  | cons l ls ih =>
    intro s s' tr th ht hp h hno h1 h2
    simp only [runFrom] at h
    split at h
    · contradiction
    next s1 es hs =>
    split at h
    · contradiction
    next s2 es' hr =>
    simp only [Option.some.injEq, Prod.mk.injEq] at h
    obtain ⟨rfl, rfl⟩ := h
    simp only [List.mem_append, not_or] at h1 h2
    rcases inCall_step hs ht hp (hno l List.mem_cons_self) with ⟨⟨th', h3, h4⟩, -⟩ | ⟨p, rfl⟩ | ⟨-, rfl, -⟩
    · exact ih s1 s2 es' th' h3 h4 hr (fun l hl => hno l (List.mem_cons_of_mem _ hl)) (fun p => (h1 p).2) h2.2
    · exact absurd List.mem_cons_self (h1 p).1
    · exact absurd List.mem_cons_self h2.1

/-- **C10.**  However long a call of `lock()`, `try_lock()` or a timed lock has been running, and whatever the other
threads did meanwhile: if it has not returned, no deadline passed and no OS call failed, nobody owns the mutex and the
other threads are outside, then it returns owning the mutex after at most four further steps of its own.  In particular
it is not asleep for ever, and it never returns in any other way. -/
theorem C10_call_completes {n : Nat} (hn : n < 2 ^ 30) {tr es tr' : List Ev} {s s1 s2 : St} {t : Nat} {k : Kind}
    {ls : List (Nat × Act)} (h : Exec step (init n) tr s) (hc : step s (t, .call k) = some (s1, es))
    (hr : runFrom step s1 ls = some (s2, tr')) (hno : ∀ l ∈ ls, ¬ Faulty t l)
    (hret : (∀ p, Ev.acquired t k p ∉ tr') ∧ Ev.failed t k ∉ tr')
    (hfree : ∀ i, holds (tr ++ es ++ tr') i = false)
    (hidle : ∀ (i : Nat) (th : Th), s2.ths[i]? = some th → i ≠ t → th.pc = .idle) :
    ∃ m s3 es' p, m ≤ 4 ∧ runFrom step s2 (List.replicate m (t, .go)) = some (s3, es') ∧ Ev.acquired t k p ∈ es' := by
  suffices ∃ m, m ≤ 4 ∧ Acquires s2 t k m by
    obtain ⟨m, h1, s3, es', p, h2, h3⟩ := this
    exact ⟨m, s3, es', p, h1, h2, h3⟩
  have hx : Exec step (init n) (tr ++ es ++ tr') s2 := (Exec.snoc h hc).trans (exec_of_run hr)
  have h1 : ∃ th, s1.ths[t]? = some th ∧ th.pc.inCall k := by
    simp only [step] at hc
    split at hc
    · cases hc
    next th ht =>
    obtain ⟨pc, view⟩ := th
    cases pc <;> simp only [Option.some.injEq, Prod.mk.injEq, reduceCtorEq] at hc
    obtain ⟨rfl, rfl⟩ := hc
    exact ⟨_, get_set_self ht, rfl⟩
  obtain ⟨th, ht1, hp1⟩ := h1
  obtain ⟨⟨pc, view⟩, ht, hp⟩ := inCall_run ls s1 s2 tr' th ht1 hp1 hr hno hret.1 hret.2
  have I := inv_exec hn hx
  have A := agree_exec hx
  have hl : L s2.word.val = 0 := by rw [I.lock]; exact A.none hfree
  have hnl := isLocked_false.mpr hl
  cases pc with
  | tryBts k' =>
    obtain rfl : k' = k := hp
    exact ⟨1, by omega, Acquires.last (p := .fast) (by simp only [step, ht, hnl, Bool.false_eq_true, if_false]; rfl)⟩
  | load k' =>
    obtain ⟨rfl, -⟩ : k' = k ∧ _ := hp
    obtain ⟨m, h1, h2⟩ := acquires_mark (k := k') (old := s2.word.val)
      (s := { s2 with ths := s2.ths.set t ⟨.mark k' s2.word.val, s2.word.loadView acqOrder view⟩ }) hl (get_set_self ht)
    exact ⟨m + 1, by omega, Acquires.cons (es := []) (by simp only [step, ht]) h2⟩
  | mark k' old =>
    obtain ⟨rfl, -⟩ : k' = k ∧ _ := hp
    obtain ⟨m, h1, h2⟩ := acquires_mark hl ht
    exact ⟨m, by omega, h2⟩
  | clr k' old =>
    obtain ⟨rfl, -⟩ : k' = k ∧ _ := hp
    obtain ⟨m, h1, h2⟩ := acquires_clr hl ht
    exact ⟨m, by omega, h2⟩
  | evWait k' old =>
    obtain ⟨rfl, -⟩ : k' = k ∧ _ := hp
    have none : ∀ p : Th → Bool, p ⟨.evWait k' old, view⟩ = false → (∀ v, p ⟨.idle, v⟩ = false) → s2.ths.countP p = 0 := by
      intro p h1 h2
      apply countP_eq_zero_of_forall
      intro i x hx
      by_cases hi : i = t
      · subst hi; rw [ht] at hx; cases hx; exact h1
      · have := hidle i x hx hi
        obtain ⟨pc, v⟩ := x
        obtain rfl : pc = .idle := this
        exact h2 v
    have hcnt : 0 < C s2.word.val := by rw [I.cnt]; exact countP_pos_of_get ht rfl
    have hev : s2.ev = true := by
      have hw := I.wake hl hcnt
      rw [none Th.flagging rfl fun _ => rfl] at hw
      have hf := I.flag
      rw [none Th.setting rfl fun _ => rfl, none Th.clearing rfl fun _ => rfl] at hf
      cases he : s2.ev with
      | true => rfl
      | false => rw [he, b2n_false] at hf; omega
    obtain ⟨m, h1, h2⟩ := acquires_clr (k := k') (old := clrStart old)
      (s := { s2 with ev := false, ths := s2.ths.set t ⟨.clr k' (clrStart old), view ++ s2.evMsg⟩ }) hl (get_set_self ht)
    exact ⟨m + 1, by omega, Acquires.cons (es := [.consumed t]) (by simp only [step, ht, hev, if_true]) h2⟩
  | _ => exact absurd hp id

/-- Thread 1 sleeps in `lock()` while thread 0 unlocks. -/
example : ∃ tr es tr' s s1 s2 ls, Exec step (init 2) tr s ∧ step s (1, .call .lock) = some (s1, es) ∧
    runFrom step s1 ls = some (s2, tr') ∧ (∀ l ∈ ls, ¬ Faulty 1 l) ∧ Ev.released 0 ∈ tr' ∧
    ((∀ p, Ev.acquired 1 .lock p ∉ tr') ∧ Ev.failed 1 .lock ∉ tr') ∧ ∀ i, holds (tr ++ es ++ tr') i = false := by
  refine ⟨_, _, _, _, _, _, [(1, .go), (1, .go), (1, .go), (0, .callUnlock), (0, .go), (0, .go), (0, .go)],
    exec_of_run (ls := [(0, .call .lock), (0, .go)]) rfl, rfl, rfl, ?_, by decide, ⟨?_, by decide⟩, ?_⟩
  · intro l hl hf
    simp only [Faulty] at hf
    rcases hf with rfl | rfl | rfl <;> simp at hl
  · intro p; cases p <;> decide
  · intro i
    by_cases hi : 0 = i <;>
      simp [holds, List.foldl, holdsUpd, hi]

end Verif.WinMutex
