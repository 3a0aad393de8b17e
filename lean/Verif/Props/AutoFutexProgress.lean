import Verif.Props.AutoEventFutex

/-! C18, C20, C23 for the futex `auto_reset_event`: which waits may fail, and that the threads carrying a post do return. -/

namespace Verif.AutoFutex

/-- The thread that reports the event. -/
def Ev.thread : Ev → Nat
  | .work t _ | .called t _ | .posted t | .postDone t | .waitDone t | .tryDone t _ | .timedDone t _ => t

theorem retEv_thread (t : Nat) (k : Kind) (b : Bool) : (retEv t k b).thread = t := by cases k <;> rfl

/-- A step reports events of its own thread only. -/
theorem step_thread {s s' : St} {u : Nat} {a : Act} {es : List Ev} (hs : step s (u, a) = some (s', es)) :
    ∀ e ∈ es, e.thread = u := by
  unfold step at hs
  simp only at hs
  split at hs
  · cases hs
  split at hs
  all_goals
    first
    | contradiction
    | (repeat' split at hs) <;>
        first
        | contradiction
        | (simp only [Option.some.injEq, Prod.mk.injEq] at hs
           obtain ⟨_, rfl⟩ := hs
           intro e he
           simp only [List.mem_cons, List.not_mem_nil, or_false] at he
           first
           | done
           | (rcases he with rfl | rfl <;> rfl)
           | (subst he; first | rfl | exact retEv_thread _ _ _))

/-- A step of another thread leaves a thread alone, or wakes it. -/
theorem step_other {s s' : St} {u t : Nat} {a : Act} {es : List Ev} {th : Th} (hs : step s (u, a) = some (s', es))
    (hu : u ≠ t) (ht : s.ths[t]? = some th) :
    s'.ths[t]? = some th ∨ ∃ k, th.pc = .asleep k ∧ s'.ths[t]? = some ⟨.reload k, th.view⟩ := by
  unfold step at hs
  simp only at hs
  split at hs
  · cases hs
  split at hs
  all_goals
    first
    | contradiction
    | (repeat' split at hs) <;>
        first
        | contradiction
        | (simp only [Option.some.injEq, Prod.mk.injEq] at hs
           rw [← hs.1]
           simp only
           left
           rw [get_set_ne hu]
           exact ht)
        | skip
  next j _ x k v hj =>
    simp only [Option.some.injEq, Prod.mk.injEq] at hs
    rw [← hs.1]
    simp only
    by_cases hjt : j = t
    · subst hjt
      right
      rw [ht] at hj
      cases hj
      exact ⟨k, rfl, get_set_self (by rw [get_set_ne hu]; exact ht)⟩
    · left
      rw [get_set_ne hjt, get_set_ne hu]
      exact ht

/-! ### Failing waits -/

theorem not_mem_ret_try {t u : Nat} {k : Kind} : Ev.tryDone t false ∉ [retEv u k true] := by
  cases k <;> simp [retEv]


/-- The steps that can be taken while the event is signalled, with loads and failing compare-exchanges that read the present word. -/
def stepSignalled : StepFn St (Nat × Act) Ev := fun s l =>
  if posts s.word.val > 0 then
    match l.2 with
    | .load v | .casFail v => if v = s.word.val then step s l else none
    | _ => step s l
  else none

/-- Local states in which the last word looked at was signalled. -/
def PC.sawPost : PC → Prop
  | .tryLoop _ old | .toLoop old => posts old > 0
  | _ => True

theorem sawPost_step {s s' : St} {l : Nat × Act} {es : List Ev} {t : Nat} {th : Th}
    (hs : stepSignalled s l = some (s', es)) (ht : s.ths[t]? = some th) (hp : th.pc.sawPost) :
    (∃ th', s'.ths[t]? = some th' ∧ th'.pc.sawPost) ∧ Ev.tryDone t false ∉ es ∧ Ev.timedDone t false ∉ es := by
  obtain ⟨u, a⟩ := l
  simp only [stepSignalled] at hs
  split at hs
  case isFalse => cases hs
  next hpos =>
  have hload : ∀ v, a = .load v ∨ a = .casFail v → v = s.word.val := by
    rintro v (rfl | rfl)
    all_goals
      simp only at hs
      split at hs
      · assumption
      · cases hs
  have hs0 := hs
  have hs : step s (u, a) = some (s', es) := by
    clear hs0
    split at hs
    · split at hs
      · exact hs
      · cases hs
    · split at hs
      · exact hs
      · cases hs
    · exact hs
  by_cases hu : u = t
  · subst hu
    obtain ⟨pc, view⟩ := th
    simp only [step, ht] at hs
    clear hs0
    split at hs
    all_goals (repeat' split at hs)
    all_goals first
      | contradiction
      | exact absurd hp ‹¬ _›
      | skip
    all_goals
      simp only [Option.some.injEq, Prod.mk.injEq] at hs
      obtain ⟨rfl, rfl⟩ := hs
    all_goals first
      | (exfalso; rename_i hz _; rw [posts_zero] at hz; have hp : posts _ > 0 := hp; rw [posts_pos] at hp; omega)
      | (refine ⟨⟨_, get_set_self ht, ?_⟩, ?_, ?_⟩ <;>
          first
          | trivial
          | exact hpos
          | (obtain rfl := hload _ (.inl rfl); exact hpos)
          | (obtain rfl := hload _ (.inr rfl); exact hpos)
          | exact not_mem_ret
          | exact not_mem_ret_try
          | (simp; done))
      | skip
    next _ _ j x k v hj =>
      have hju : j ≠ u := by
        rintro rfl
        rw [ht] at hj
        cases hj
      exact ⟨⟨⟨.idle, view⟩, by simp only; rw [get_set_ne hju]; exact get_set_self ht, trivial⟩, by simp, by simp⟩
  · refine ⟨?_, ?_, ?_⟩
    · rcases step_other hs hu ht with h | ⟨k, _, h⟩
      · exact ⟨th, h, hp⟩
      · exact ⟨_, h, trivial⟩
    · intro he
      exact hu (step_thread hs _ he).symm
    · intro he
      exact hu (step_thread hs _ he).symm

/-- **C20, C23.**  While the event stays signalled no wait fails: neither `try_wait` nor a timed wait, not even if its
deadline has passed.  (Start in any state in which the thread is outside; every load and failing compare-exchange reads the present word; the other
threads may be anywhere, and there is no bound on their number.) -/
theorem C20_no_failure_while_signalled {s s' : St} {tr : List Ev} {t : Nat} {v : View}
    (ht : s.ths[t]? = some ⟨.idle, v⟩) (h : Exec stepSignalled s tr s') :
    Ev.tryDone t false ∉ tr ∧ Ev.timedDone t false ∉ tr := by
  have : (∃ th, s'.ths[t]? = some th ∧ th.pc.sawPost) ∧ Ev.tryDone t false ∉ tr ∧ Ev.timedDone t false ∉ tr := by
    induction h with
    | init => exact ⟨⟨_, ht, trivial⟩, by simp, by simp⟩
    | snoc _ hs ih =>
      obtain ⟨⟨th, h1, h2⟩, h3, h4⟩ := ih
      obtain ⟨h5, h6, h7⟩ := sawPost_step hs h1 h2
      refine ⟨h5, ?_, ?_⟩ <;> rw [List.mem_append, not_or]
      · exact ⟨h3, h6⟩
      · exact ⟨h4, h7⟩
  exact this.2

/-- Two timed waits succeed, one of them after its deadline. -/
example : ∃ s s' tr, Reachable step (init 3) s ∧ s.ths[0]? = some ⟨.idle, []⟩ ∧ Exec stepSignalled s tr s' ∧
    Ev.timedDone 0 true ∈ tr ∧ Ev.timedDone 1 true ∈ tr :=
  ⟨_, _, _, ⟨_, exec_of_run (ls := [(1, .call .timedWait), (1, .load 0), (1, .go), (1, .go), (1, .go), (1, .go),
    (1, .timeout), (2, .call .post), (2, .load 1), (2, .go), (2, .wakeNone), (2, .call .post), (2, .load 0x400001), (2, .go),
    (2, .wakeNone)]) rfl⟩, rfl,
    exec_of_run (ls := [(0, .call .timedWait), (0, .load 0x800001), (0, .go), (1, .load 0x400001), (1, .go)]) rfl,
    by decide, by decide⟩

/-! ### Timed waits fail only after the deadline -/

/-- Local states of a timed wait whose deadline has not been seen to pass. -/
def PC.inTime : PC → Prop
  | .toLoad | .toLoop _ => False
  | _ => True

theorem inTime_step {s s' : St} {l : Nat × Act} {es : List Ev} {t : Nat} {th : Th}
    (hs : step s l = some (s', es)) (ht : s.ths[t]? = some th) (hp : th.pc.inTime)
    (hno : l ≠ (t, .expired) ∧ l ≠ (t, .timeout)) :
    (∃ th', s'.ths[t]? = some th' ∧ th'.pc.inTime) ∧ Ev.timedDone t false ∉ es := by
  obtain ⟨u, a⟩ := l
  by_cases hu : u = t
  · subst hu
    obtain ⟨pc, view⟩ := th
    simp only [step, ht] at hs
    split at hs
    all_goals (repeat' split at hs)
    all_goals first
      | contradiction
      | exact absurd rfl hno.1
      | exact absurd rfl hno.2
      | exact absurd hp id
      | skip
    all_goals
      simp only [Option.some.injEq, Prod.mk.injEq] at hs
      obtain ⟨rfl, rfl⟩ := hs
    all_goals first
      | (refine ⟨⟨_, get_set_self ht, trivial⟩, ?_⟩ <;>
          first
          | exact not_mem_ret
          | (simp; done))
      | skip
    next _ _ j x k v hj =>
      have hju : j ≠ u := by
        rintro rfl
        rw [ht] at hj
        cases hj
      exact ⟨⟨⟨.idle, view⟩, by simp only; rw [get_set_ne hju]; exact get_set_self ht, trivial⟩, by simp⟩
  · refine ⟨?_, ?_⟩
    · rcases step_other hs hu ht with h | ⟨k, _, h⟩
      · exact ⟨th, h, hp⟩
      · exact ⟨_, h, trivial⟩
    · intro he
      exact hu (step_thread hs _ he).symm

/-- **C20.**  A timed wait fails only after its deadline was found to have passed: in a run in which that never happens to
thread `t`, none of its timed waits fails. -/
theorem C20_no_early_failure {s s' : St} {ls : List (Nat × Act)} {tr : List Ev} {t : Nat} {v : View}
    (ht : s.ths[t]? = some ⟨.idle, v⟩) (h : runFrom step s ls = some (s', tr))
    (hno : (t, Act.expired) ∉ ls ∧ (t, Act.timeout) ∉ ls) : Ev.timedDone t false ∉ tr := by
  have key : ∀ (ls : List (Nat × Act)) (s : St) (tr : List Ev) (th : Th), s.ths[t]? = some th → th.pc.inTime →
      runFrom step s ls = some (s', tr) → (t, Act.expired) ∉ ls → (t, Act.timeout) ∉ ls → Ev.timedDone t false ∉ tr := by
    intro ls
    induction ls with
    | nil =>
      intro s tr th _ _ h _ _
      simp only [runFrom, Option.some.injEq, Prod.mk.injEq] at h
      rw [← h.2]
      simp
    | cons l ls ih =>
      intro s tr th ht hp h h1 h2
      simp only [runFrom] at h
      split at h
      · contradiction
      next s1 es hs =>
      split at h
      · contradiction
      next s2 es' hr =>
      simp only [Option.some.injEq, Prod.mk.injEq] at h
      obtain ⟨rfl, rfl⟩ := h
      simp only [List.mem_cons, not_or] at h1 h2
      obtain ⟨⟨th', h3, h4⟩, h5⟩ := inTime_step hs ht hp ⟨fun h => h1.1 h.symm, fun h => h2.1 h.symm⟩
      rw [List.mem_append, not_or]
      exact ⟨h5, ih s1 es' th' h3 h4 hr h1.2 h2.2⟩
  exact key ls s tr _ ht trivial h hno.1 hno.2

example : ∃ s tr, runFrom step (init 2) [(0, .call .timedWait), (0, .load 0), (0, .go), (0, .go), (0, .go), (0, .go),
    (0, .spurious), (1, .call .post), (1, .load 1), (1, .go), (1, .wakeNone), (0, .load 0x400001), (0, .go)] = some (s, tr) ∧
    Ev.timedDone 0 true ∈ tr :=
  ⟨_, _, rfl, by decide⟩

/-! ### The threads that carry a post return -/

/-- Thread `t`, running alone without faults, returns successfully from its call. -/
def Finishes (s : St) (t : Nat) : Prop :=
  ∃ ls s' e, (∀ l ∈ ls, l = (t, .go) ∨ l = (t, .load s.word.val)) ∧ runFrom step s ls = some (s', [e]) ∧
    successOf e = some t

theorem Finishes.cons {s s1 : St} {t : Nat} {a : Act} (ha : a = .go ∨ a = .load s.word.val)
    (hs : step s (t, a) = some (s1, [])) (hw : s1.word.val = s.word.val) (h : Finishes s1 t) : Finishes s t := by
  obtain ⟨ls, s', e, h1, h2, h3⟩ := h
  refine ⟨(t, a) :: ls, s', e, ?_, ?_, h3⟩
  · intro l hl
    rcases List.mem_cons.mp hl with rfl | hl
    · rcases ha with rfl | rfl
      · exact Or.inl rfl
      · exact Or.inr rfl
    · rw [hw] at h1
      exact h1 l hl
  · simp only [runFrom, hs, h2, List.nil_append]

theorem Finishes.last {s s1 : St} {t : Nat} {e : Ev} (hs : step s (t, .go) = some (s1, [e])) (he : successOf e = some t) :
    Finishes s t := by
  refine ⟨[(t, .go)], s1, e, by simp, ?_, he⟩
  simp only [runFrom, hs, List.append_nil]

theorem retEv_succ (t : Nat) (k : Kind) : successOf (retEv t k true) = some t := by cases k <;> rfl

theorem finishes_cas {s : St} {t : Nat} {k : Kind} {v : View} (ht : s.ths[t]? = some ⟨.cas k s.word.val, v⟩) :
    Finishes s t := by
  have : ∃ s1, step s (t, .go) = some (s1, [retEv t k true]) := by
    simp only [step, ht, if_true]
    exact ⟨_, rfl⟩
  obtain ⟨s1, h1⟩ := this
  exact Finishes.last h1 (retEv_succ t k)

theorem finishes_reload {s : St} {t : Nat} {k : Kind} {v : View} (hp : posts s.word.val > 0)
    (ht : s.ths[t]? = some ⟨.reload k, v⟩) : Finishes s t :=
  Finishes.cons (a := .load s.word.val) (Or.inr rfl)
    (s1 := ⟨s.word, s.ths.set t ⟨.cas k s.word.val, v⟩, s.fresh⟩) (by simp only [step, ht, hp, if_true]) rfl
    (finishes_cas (get_set_self ht))

theorem finishes_top {s : St} {t : Nat} {k : Kind} {v : View} (hp : posts s.word.val > 0)
    (ht : s.ths[t]? = some ⟨.waitTop k s.word.val, v⟩) : Finishes s t := by
  have hz : posts s.word.val ≠ 0 := by rw [Ne, posts_zero]; rw [posts_pos] at hp; omega
  exact Finishes.cons (a := .go) (Or.inl rfl)
    (s1 := ⟨s.word, s.ths.set t ⟨.cas k s.word.val, v⟩, s.fresh⟩) (by simp only [step, ht, hz, if_false]) rfl
    (finishes_cas (get_set_self ht))

theorem finishes_cas' {s : St} {t : Nat} {k : Kind} {v : View} {old : UInt32} (hp : posts s.word.val > 0)
    (ht : s.ths[t]? = some ⟨.cas k old, v⟩) : Finishes s t := by
  by_cases h : s.word.val = old
  · subst h
    exact finishes_cas ht
  · exact Finishes.cons (a := .go) (Or.inl rfl)
      (s1 := ⟨s.word, s.ths.set t ⟨.waitTop k s.word.val, v⟩, s.fresh⟩) (by simp only [step, ht, h, if_false]) rfl
      (finishes_top hp (get_set_self ht))

theorem finishes_toLoop {s : St} {t : Nat} {v : View} (hp : posts s.word.val > 0)
    (ht : s.ths[t]? = some ⟨.toLoop s.word.val, v⟩) : Finishes s t := by
  have hz : posts s.word.val ≠ 0 := by rw [Ne, posts_zero]; rw [posts_pos] at hp; omega
  have : ∃ s1, step s (t, .go) = some (s1, [.timedDone t true]) := by
    simp only [step, ht, hz, if_true, if_false]
    exact ⟨_, rfl⟩
  obtain ⟨s1, h1⟩ := this
  exact Finishes.last h1 rfl

/-- **C18.**  If the event is signalled, every thread that is registered as a waiter and not asleep can return
successfully by itself.  Together with `C18_every_post_is_carried`: for every post that is pending while threads sleep
there is a thread that either returns successfully on its own or is about to wake a sleeper. -/
theorem C18_carrier_returns {n : Nat} (hn : n ≤ 1023) {s : St} (h : Reachable step (init n) s) {t : Nat} {th : Th}
    (ht : s.ths[t]? = some th) (hb : th.blocked = true) (ha : th.isAsleep = false) (hp : posts s.word.val > 0) :
    Finishes s t := by
  obtain ⟨tr, h⟩ := h
  have I := (exec_good (sinv_init hn) h).1
  have hP : 0 < P s.word.val := posts_pos.mp hp
  have hW : 0 < W s.word.val := by rw [I.waiters]; exact countP_pos_of_get ht hb
  obtain ⟨pc, v⟩ := th
  have sleepy : ∀ {s : St} {k : Kind} {e : UInt32} {v : View}, posts s.word.val > 0 → s.word.val ≠ e →
      s.ths[t]? = some ⟨.sleepCall k e, v⟩ → Finishes s t := by
    intro s k e v hp hne ht
    exact Finishes.cons (a := .go) (Or.inl rfl) (s1 := ⟨s.word, s.ths.set t ⟨.reload k, v⟩, s.fresh⟩)
      (by simp only [step, ht, hne, if_false]) rfl (finishes_reload hp (get_set_self ht))
  cases pc with
  | waitTop k old =>
    by_cases hz : posts old = 0
    · refine Finishes.cons (a := .go) (Or.inl rfl) (s1 := ⟨s.word, s.ths.set t ⟨.sleepCall k (old + 1), v⟩, s.fresh⟩)
        (by simp only [step, ht, hz, if_true]) rfl (sleepy hp ?_ (get_set_self ht))
      intro he
      have he : s.word.val = old + 1 := he
      rw [posts_zero] at hz
      rcases add_waiter_top hz with h1 | h1 <;> rw [← he] at h1 <;> omega
    · exact Finishes.cons (a := .go) (Or.inl rfl) (s1 := ⟨s.word, s.ths.set t ⟨.cas k old, v⟩, s.fresh⟩)
        (by simp only [step, ht, hz, if_false]) rfl (finishes_cas' hp (get_set_self ht))
  | sleepCall k e =>
    refine sleepy hp ?_ ht
    rintro rfl
    have := I.loc t _ ht
    rcases this with h1 | h1 <;> omega
  | asleep k => cases ha
  | reload k => exact finishes_reload hp ht
  | cas k old => exact finishes_cas' hp ht
  | toLoad =>
    exact Finishes.cons (a := .load s.word.val) (Or.inr rfl) (s1 := ⟨s.word, s.ths.set t ⟨.toLoop s.word.val, v⟩, s.fresh⟩)
      (by simp only [step, ht]) rfl (finishes_toLoop hp (get_set_self ht))
  | toLoop old =>
    by_cases he : s.word.val = old
    · subst he
      exact finishes_toLoop hp ht
    · refine Finishes.cons (a := .go) (Or.inl rfl) (s1 := ⟨s.word, s.ths.set t ⟨.toLoop s.word.val, v⟩, s.fresh⟩)
        ?_ rfl (finishes_toLoop hp (get_set_self ht))
      simp only [step, ht, he, if_false]
      split <;> rfl
  | _ => cases hb

/-- A registered waiter, awake, with the event signalled. -/
example : ∃ s th, Reachable step (init 2) s ∧ s.ths[0]? = some th ∧ th.blocked = true ∧ th.isAsleep = false ∧
    posts s.word.val > 0 :=
  ⟨_, _, ⟨_, exec_of_run (ls := [(0, .call .wait), (0, .load 0), (0, .go), (0, .go), (0, .go), (1, .call .post), (1, .load 1),
    (1, .go)]) rfl⟩, rfl, rfl, rfl, by decide⟩

end Verif.AutoFutex
