import Verif.Props.ManualEventFutex

/-! C29, C30 for the futex `manual_reset_event`: which waits may fail, and that released waiters do return. -/

namespace Verif.ManualFutex

/-- The thread that reports the event. -/
def Ev.thread : Ev → Nat
  | .work t _ | .called t _ | .wasSet t | .setDone t | .resetDone t | .waitDone t | .tryDone t _ | .timedDone t _ => t

theorem retEv_thread (t : Nat) (k : Kind) (b : Bool) : (retEv t k b).thread = t := by cases k <;> rfl

/-- A step reports events of its own thread only. -/
theorem step_thread {s s' : St} {u : Nat} {a : Act} {es : List Ev} (hs : step s (u, a) = some (s', es)) :
    ∀ e ∈ es, e.thread = u := by
  unfold step at hs
  simp only at hs
  split at hs
  · cases hs
  split at hs
  all_goals
    first
    | contradiction
    | (repeat' split at hs) <;>
        first
        | contradiction
        | (simp only [Option.some.injEq, Prod.mk.injEq] at hs
           obtain ⟨_, rfl⟩ := hs
           intro e he
           simp only [List.mem_cons, List.not_mem_nil, or_false] at he
           first
           | done
           | (rcases he with rfl | rfl <;> rfl)
           | (subst he; first | rfl | exact retEv_thread _ _ _))

/-- A step of another thread leaves a thread alone, or wakes it. -/
theorem step_other {s s' : St} {u t : Nat} {a : Act} {es : List Ev} {th : Th} (hs : step s (u, a) = some (s', es))
    (hu : u ≠ t) (ht : s.ths[t]? = some th) : s'.ths[t]? = some th ∨ s'.ths[t]? = some th.wakeUp := by
  unfold step at hs
  simp only at hs
  split at hs
  · cases hs
  split at hs
  all_goals
    first
    | contradiction
    | (repeat' split at hs) <;>
        first
        | contradiction
        | (simp only [Option.some.injEq, Prod.mk.injEq] at hs
           rw [← hs.1]
           simp only
           left
           rw [get_set_ne hu]
           exact ht)
        | (simp only [Option.some.injEq, Prod.mk.injEq] at hs
           rw [← hs.1]
           simp only
           right
           rw [List.getElem?_map, get_set_ne hu, ht]
           rfl)

theorem not_mem_ret {t u : Nat} {k : Kind} : Ev.timedDone t false ∉ [retEv u k true] := by
  cases k <;> simp [retEv]
theorem not_mem_ret_try {t u : Nat} {k : Kind} : Ev.tryDone t false ∉ [retEv u k true] := by
  cases k <;> simp [retEv]

/-- Only `wait` and the timed waits get past the first test of the flag. -/
def PC.kindOk : PC → Prop
  | .add k | .sleepCall k _ _ | .asleep k _ | .reload k _ | .sub k => k ≠ .tryOnly
  | _ => True

theorem kindOk_wake {th : Th} (h : th.pc.kindOk) : th.wakeUp.pc.kindOk := by
  obtain ⟨pc, v⟩ := th
  cases pc <;> exact h

theorem kindOk_step {s s' : St} {l : Nat × Act} {es : List Ev} {t : Nat} {th : Th}
    (hs : step s l = some (s', es)) (ht : s.ths[t]? = some th) (hp : th.pc.kindOk) :
    ∃ th', s'.ths[t]? = some th' ∧ th'.pc.kindOk := by
  obtain ⟨u, a⟩ := l
  by_cases hu : u = t
  · subst hu
    obtain ⟨pc, view⟩ := th
    simp only [step, ht] at hs
    split at hs
    all_goals (repeat' split at hs)
    all_goals first
      | contradiction
      | skip
    all_goals
      simp only [Option.some.injEq, Prod.mk.injEq] at hs
      obtain ⟨rfl, rfl⟩ := hs
    all_goals first
      | exact ⟨_, get_set_self ht, trivial⟩
      | exact ⟨_, get_set_self ht, hp⟩
      | exact ⟨_, get_set_self ht, ‹¬ _›⟩
      | exact ⟨_, get_set_self ht, Kind.noConfusion⟩
      | (refine ⟨_, get_set_self ht, ?_⟩; simp only; split <;> exact hp)
      | exact ⟨⟨.idle, view⟩, by simp only; rw [List.getElem?_map, get_set_self ht]; rfl, trivial⟩
  · rcases step_other hs hu ht with h | h
    · exact ⟨th, h, hp⟩
    · exact ⟨_, h, kindOk_wake hp⟩

theorem kindOk_exec {n : Nat} {tr : List Ev} {s : St} (h : Exec step (init n) tr s) :
    ∀ (t : Nat) (th : Th), s.ths[t]? = some th → th.pc.kindOk := by
  induction h with
  | init => intro t th ht; rw [get_replicate ht]; trivial
  | @snoc tr s s' l es _ hs ih =>
    intro t th' ht'
    cases ht : s.ths[t]? with
    | none =>
      have : s'.ths.length = s.ths.length := by
        unfold step at hs
        simp only at hs
        split at hs
        · cases hs
        split at hs
        all_goals (repeat' split at hs)
        all_goals first
          | contradiction
          | (simp only [Option.some.injEq, Prod.mk.injEq] at hs; rw [← hs.1]; simp)
      rw [List.getElem?_eq_none_iff, ← this] at ht
      rw [List.getElem?_eq_none_iff.mpr ht] at ht'
      cases ht'
    | some th =>
      obtain ⟨th'', h1, h2⟩ := kindOk_step hs ht (ih t th ht)
      rw [ht'] at h1
      cases h1
      exact h2

/-- **C30.**  `try_wait` reports exactly whether the event is set at that instant (and changes nothing). -/
theorem C30_try_wait_exact {n : Nat} (hn : n < 2 ^ 31) {tr es : List Ev} {s s' : St} {l : Nat × Act} {t : Nat} {ok : Bool}
    (h : Exec step (init n) tr s) (hs : step s l = some (s', es)) (he : Ev.tryDone t ok ∈ es) :
    ok = flag tr ∧ s'.word = s.word := by
  rw [(inv_exec hn h).flag]
  have K := kindOk_exec h
  obtain ⟨u, a⟩ := l
  obtain rfl := step_thread hs _ he
  simp only [Ev.thread] at hs
  unfold step at hs
  simp only at hs
  split at hs
  · cases hs
  next th ht =>
  split at hs
  all_goals (repeat' split at hs)
  all_goals first
    | contradiction
    | skip
  all_goals
    simp only [Option.some.injEq, Prod.mk.injEq] at hs
    obtain ⟨rfl, rfl⟩ := hs
  all_goals first
    | (simp at he; done)
    | skip
  · next k hpc hset =>
    refine ⟨?_, rfl⟩
    rw [hset]
    cases k <;> simp_all [retEv]
  · next k hpc hset hk =>
    refine ⟨?_, rfl⟩
    simp only [List.mem_singleton, Ev.tryDone.injEq] at he
    rw [he.2]
    simpa using hset
  · next k hpc =>
    have := K _ _ ht
    rw [hpc] at this
    exfalso
    cases k <;> simp_all [retEv, PC.kindOk]

example : ∃ (tr es tr' es' : List Ev) (s s' s1 s1' : St),
    Exec step (init 2) tr s ∧ step s (0, .go) = some (s', es) ∧ Ev.tryDone 0 false ∈ es ∧
    Exec step (init 2) tr' s1 ∧ step s1 (0, .go) = some (s1', es') ∧ Ev.tryDone 0 true ∈ es' :=
  ⟨_, _, _, _, _, _, _, _, exec_of_run (ls := [(0, .call .tryWait)]) rfl, rfl, by decide,
    exec_of_run (ls := [(1, .call .set), (1, .go), (0, .call .tryWait)]) rfl, rfl, by decide⟩

/-! ### Timed waits -/

/-- Local states of a timed wait whose deadline has not been seen to pass. -/
def PC.inTime : PC → Prop
  | .timedOut => False
  | _ => True

theorem inTime_wake {th : Th} (h : th.pc.inTime) : th.wakeUp.pc.inTime := by
  obtain ⟨pc, v⟩ := th
  cases pc <;> exact h

theorem inTime_step {s s' : St} {l : Nat × Act} {es : List Ev} {t : Nat} {th : Th}
    (hs : step s l = some (s', es)) (ht : s.ths[t]? = some th) (hp : th.pc.inTime)
    (hno : l ≠ (t, .expired) ∧ l ≠ (t, .timeout)) :
    (∃ th', s'.ths[t]? = some th' ∧ th'.pc.inTime) ∧ Ev.timedDone t false ∉ es := by
  obtain ⟨u, a⟩ := l
  by_cases hu : u = t
  · subst hu
    obtain ⟨pc, view⟩ := th
    simp only [step, ht] at hs
    split at hs
    all_goals (repeat' split at hs)
    all_goals first
      | contradiction
      | exact absurd rfl hno.1
      | exact absurd rfl hno.2
      | exact absurd hp id
      | skip
    all_goals
      simp only [Option.some.injEq, Prod.mk.injEq] at hs
      obtain ⟨rfl, rfl⟩ := hs
    all_goals first
      | (refine ⟨⟨_, get_set_self ht, trivial⟩, ?_⟩ <;>
          first
          | exact not_mem_ret
          | (simp; done))
      | (refine ⟨⟨_, get_set_self ht, ?_⟩, by simp⟩; simp only; split <;> trivial)
      | exact ⟨⟨⟨.idle, view⟩, by simp only; rw [List.getElem?_map, get_set_self ht]; rfl, trivial⟩, by simp⟩
  · refine ⟨?_, ?_⟩
    · rcases step_other hs hu ht with h | h
      · exact ⟨th, h, hp⟩
      · exact ⟨_, h, inTime_wake hp⟩
    · intro he
      exact hu (step_thread hs _ he).symm

/-- **C30.**  A timed wait fails only after its deadline was found to have passed: in a run in which that never happens to
thread `t`, none of its timed waits fails. -/
theorem C30_no_early_failure {s s' : St} {ls : List (Nat × Act)} {tr : List Ev} {t : Nat} {v : View}
    (ht : s.ths[t]? = some ⟨.idle, v⟩) (h : runFrom step s ls = some (s', tr))
    (hno : (t, Act.expired) ∉ ls ∧ (t, Act.timeout) ∉ ls) : Ev.timedDone t false ∉ tr := by
  have key : ∀ (ls : List (Nat × Act)) (s : St) (tr : List Ev) (th : Th), s.ths[t]? = some th → th.pc.inTime →
      runFrom step s ls = some (s', tr) → (t, Act.expired) ∉ ls → (t, Act.timeout) ∉ ls → Ev.timedDone t false ∉ tr := by
    intro ls
    induction ls with
    | nil =>
      intro s tr th _ _ h _ _
      simp only [runFrom, Option.some.injEq, Prod.mk.injEq] at h
      rw [← h.2]
      simp
    | cons l ls ih =>
      intro s tr th ht hp h h1 h2
      simp only [runFrom] at h
      split at h
      · contradiction
      next s1 es hs =>
      split at h
      · contradiction
      next s2 es' hr =>
      simp only [Option.some.injEq, Prod.mk.injEq] at h
      obtain ⟨rfl, rfl⟩ := h
      simp only [List.mem_cons, not_or] at h1 h2
      obtain ⟨⟨th', h3, h4⟩, h5⟩ := inTime_step hs ht hp ⟨fun h => h1.1 h.symm, fun h => h2.1 h.symm⟩
      rw [List.mem_append, not_or]
      exact ⟨h5, ih s1 es' th' h3 h4 hr h1.2 h2.2⟩
  exact key ls s tr _ ht trivial h hno.1 hno.2

example : ∃ s tr, runFrom step (init 2) [(0, .call .timedWait), (0, .go), (0, .go), (0, .go), (0, .spurious),
    (1, .call .set), (1, .go), (0, .load 3), (0, .go)] = some (s, tr) ∧ Ev.timedDone 0 true ∈ tr :=
  ⟨_, _, rfl, by decide⟩

/-- **C30.**  A wait on a set event succeeds at once: the call of any waiting function returns true at its first step,
if the event is set. -/
theorem C30_wait_on_set_event {n : Nat} (hn : n < 2 ^ 31) {tr : List Ev} {s : St} {t : Nat} {v : View} {op : Op}
    (h : Exec step (init n) tr s) (ht : s.ths[t]? = some ⟨.idle, v⟩) (hop : op = .wait ∨ op = .tryWait ∨ op = .timedWait)
    (hset : flag tr = true) :
    ∃ s' e, runFrom step s [(t, .call op), (t, .go)] = some (s', [.called t op, e]) ∧ successOf e = some t ∧
      s'.word = s.word := by
  rw [(inv_exec hn h).flag] at hset
  rcases hop with rfl | rfl | rfl
  · refine ⟨⟨s.word, s.ths.set t ⟨.idle, s.word.loadView takeOrder v⟩, s.fresh, s.sets⟩, .waitDone t, ?_, rfl, rfl⟩
    simp only [runFrom, step, ht, get_set_self ht, hset, if_true, List.set_set]
    rfl
  · refine ⟨⟨s.word, s.ths.set t ⟨.idle, s.word.loadView takeOrder v⟩, s.fresh, s.sets⟩, .tryDone t true, ?_, rfl, rfl⟩
    simp only [runFrom, step, ht, get_set_self ht, hset, if_true, List.set_set]
    rfl
  · refine ⟨⟨s.word, s.ths.set t ⟨.idle, s.word.loadView takeOrder v⟩, s.fresh, s.sets⟩, .timedDone t true, ?_, rfl, rfl⟩
    simp only [runFrom, step, ht, get_set_self ht, hset, if_true, List.set_set]
    rfl

/-! ### Released waiters return -/

/-- Thread `t`, running alone without faults, returns successfully from its call. -/
def Finishes (s : St) (t : Nat) : Prop :=
  ∃ ls s' e, (∀ l ∈ ls, l = (t, .go) ∨ l = (t, .load s.word.val)) ∧ runFrom step s ls = some (s', [e]) ∧
    successOf e = some t

theorem Finishes.cons {s s1 : St} {t : Nat} {a : Act} (ha : a = .go ∨ a = .load s.word.val)
    (hs : step s (t, a) = some (s1, [])) (hw : s1.word.val = s.word.val) (h : Finishes s1 t) : Finishes s t := by
  obtain ⟨ls, s', e, h1, h2, h3⟩ := h
  refine ⟨(t, a) :: ls, s', e, ?_, ?_, h3⟩
  · intro l hl
    rcases List.mem_cons.mp hl with rfl | hl
    · rcases ha with rfl | rfl
      · exact Or.inl rfl
      · exact Or.inr rfl
    · rw [hw] at h1
      exact h1 l hl
  · simp only [runFrom, hs, h2, List.nil_append]

/-- While the event is set, every waiter registered before the last `set`. -/
def PC.early (sets : Nat) : PC → Prop
  | .sleepCall _ _ b | .asleep _ b | .reload _ b => b < sets
  | _ => True

def Early (s : St) : Prop := isSet s.word.val = true → ∀ (t : Nat) (th : Th), s.ths[t]? = some th → th.pc.early s.sets

theorem early_wake {th : Th} {n : Nat} (h : th.pc.early n) : th.wakeUp.pc.early n := by
  obtain ⟨pc, v⟩ := th
  cases pc <;> exact h

theorem add_even (w : UInt32) : isSet (w + waitOne) = isSet w := by
  have h1 := isSet_iff (w := w)
  have h2 := isSet_iff (w := w + waitOne)
  rw [add_toNat] at h2
  rw [Bool.eq_iff_iff, h1, h2]
  omega

theorem sub_even (w : UInt32) : isSet (w - waitOne) = isSet w := by
  have h1 := isSet_iff (w := w)
  have h2 := isSet_iff (w := w - waitOne)
  rw [sub_toNat] at h2
  rw [Bool.eq_iff_iff, h1, h2]
  omega

theorem and_clear (w : UInt32) : isSet (w &&& waitMask) = false := by
  rw [isSet_false_iff, and_toNat]
  omega

theorem early_move {s : St} {t : Nat} {th th' : Th} {w' : Loc UInt32} {f' : Nat} (E : Early s)
    (ht : s.ths[t]? = some th) (hw : isSet w'.val = true → isSet s.word.val = true)
    (hp : isSet s.word.val = true → th.pc.early s.sets → th'.pc.early s.sets) :
    Early ⟨w', s.ths.set t th', f', s.sets⟩ := by
  intro hset i x hx
  have hset' := hw hset
  rcases get_set_cases hx with ⟨rfl, rfl⟩ | ⟨_, hx⟩
  · exact hp hset' (E hset' _ _ ht)
  · exact E hset' i x hx

theorem early_set {tr : List Ev} {s : St} {t : Nat} {th' : Th} {w' : Loc UInt32} {f' : Nat} (I : Inv tr s)
    (hp : th'.pc.early (s.sets + 1)) : Early ⟨w', s.ths.set t th', f', s.sets + 1⟩ := by
  intro _ i x hx
  rcases get_set_cases hx with ⟨rfl, rfl⟩ | ⟨_, hx⟩
  · exact hp
  · have := I.loc i x hx
    obtain ⟨pc, v⟩ := x
    cases pc <;> first | trivial | (simp only [PC.ok, PC.early] at *; omega)

theorem early_goto {s : St} {t : Nat} {th th' : Th} {f' : Nat} (E : Early s) (ht : s.ths[t]? = some th)
    (hp : isSet s.word.val = true → th.pc.early s.sets → th'.pc.early s.sets) :
    Early ⟨s.word, s.ths.set t th', f', s.sets⟩ := early_move E ht id hp

theorem early_sub {s : St} {t : Nat} {th th' : Th} {f' : Nat} {o : Order} {v : View} (E : Early s)
    (ht : s.ths[t]? = some th) (hp : isSet s.word.val = true → th.pc.early s.sets → th'.pc.early s.sets) :
    Early ⟨(s.word.rmw o v (s.word.val - waitOne)).1, s.ths.set t th', f', s.sets⟩ :=
  early_move E ht (fun h => (sub_even s.word.val).symm.trans h) hp

theorem early_add {s : St} {t : Nat} {th th' : Th} {f' : Nat} {o : Order} {v : View} (E : Early s)
    (ht : s.ths[t]? = some th) (hp : isSet s.word.val = true → th.pc.early s.sets → th'.pc.early s.sets) :
    Early ⟨(s.word.rmw o v (s.word.val + waitOne)).1, s.ths.set t th', f', s.sets⟩ :=
  early_move E ht (fun h => (add_even s.word.val).symm.trans h) hp

theorem early_and {s : St} {t : Nat} {th th' : Th} {f' : Nat} {o : Order} {v : View} (E : Early s)
    (ht : s.ths[t]? = some th) (hp : isSet s.word.val = true → th.pc.early s.sets → th'.pc.early s.sets) :
    Early ⟨(s.word.rmw o v (s.word.val &&& waitMask)).1, s.ths.set t th', f', s.sets⟩ :=
  early_move E ht (fun h => Bool.noConfusion ((and_clear s.word.val).symm.trans h)) hp

theorem early_step {tr : List Ev} {s s' : St} {l : Nat × Act} {es : List Ev} (I : Inv tr s) (E : Early s)
    (hs : step s l = some (s', es)) : Early s' := by
  obtain ⟨t, a⟩ := l
  unfold step at hs
  simp only at hs
  split at hs
  · cases hs
  next th ht =>
  split at hs
  all_goals (repeat' split at hs)
  all_goals first
    | contradiction
    | skip
  all_goals
    simp only [Option.some.injEq, Prod.mk.injEq] at hs
    obtain ⟨rfl, rfl⟩ := hs
  all_goals first
    | (with_reducible refine early_goto E ht ?_); exact fun _ _ => trivial
    | (with_reducible refine early_goto E ht ?_); simp_all [PC.early]; done
    | (with_reducible refine early_and E ht ?_); exact fun _ _ => trivial
    | (with_reducible refine early_sub E ht ?_); exact fun _ _ => trivial
    | (with_reducible refine early_add E ht ?_); exact fun _ _ => trivial
    | (with_reducible refine early_set I ?_); exact trivial
    | skip
  · intro hset i x hx
    simp only [List.getElem?_map, Option.map_eq_some_iff] at hx
    obtain ⟨y, hy, rfl⟩ := hx
    rcases get_set_cases hy with ⟨rfl, rfl⟩ | ⟨_, hy⟩
    · trivial
    · exact early_wake (E hset i y hy)
  · next hns =>
    refine early_add E ht (fun h _ => ?_)
    rw [add_even, h] at hns
    exact absurd rfl hns

theorem early_exec {n : Nat} (hn : n < 2 ^ 31) {tr : List Ev} {s : St} (h : Exec step (init n) tr s) : Early s := by
  induction h with
  | init => intro _ t th ht; rw [get_replicate ht]; trivial
  | snoc h hs ih => exact early_step (inv_exec hn h) ih hs

/-- **C29.**  While the event is set, every thread registered as a waiter that is not asleep (and whose deadline was not
found to have passed) can return successfully by itself.  Together with `C29_no_lost_wakeup` and `C29_set_releases_all`:
after `set()` has returned, all waiters can return as long as nobody calls `reset()`. -/
theorem C29_waiter_returns {n : Nat} (hn : n < 2 ^ 31) {tr : List Ev} {s : St} (h : Exec step (init n) tr s) {t : Nat}
    {th : Th} (ht : s.ths[t]? = some th) (hb : th.blocked = true) (ha : th.isAsleep = false) (hto : th.pc ≠ .timedOut)
    (hset : flag tr = true) : Finishes s t := by
  have I := inv_exec hn h
  have K := kindOk_exec h t th ht
  rw [I.flag] at hset
  have E := early_exec hn h hset t th ht
  have L := I.loc t th ht
  obtain ⟨pc, v⟩ := th
  have hsub : ∀ {s : St} {k : Kind} {v : View}, s.ths[t]? = some ⟨.sub k, v⟩ → Finishes s t := by
    intro s k v ht
    have : ∃ s1, step s (t, .go) = some (s1, [retEv t k true]) := by
      simp only [step, ht]
      exact ⟨_, rfl⟩
    obtain ⟨s1, h1⟩ := this
    refine ⟨[(t, .go)], s1, retEv t k true, by simp, ?_, by cases k <;> rfl⟩
    simp only [runFrom, h1, List.append_nil]
  have hre : ∀ {s : St} {k : Kind} {b : Nat} {v : View}, isSet s.word.val = true → b < s.sets →
      s.ths[t]? = some ⟨.reload k b, v⟩ → Finishes s t := by
    intro s k b v hset hb ht
    exact Finishes.cons (a := .load s.word.val) (Or.inr rfl) (s1 := ⟨s.word, s.ths.set t ⟨.sub k, v⟩, s.fresh, s.sets⟩)
      (by simp only [step, ht, hset, hb, if_true]) rfl (hsub (get_set_self ht))
  cases pc with
  | sleepCall k e b =>
    have hne : s.word.val ≠ e := by
      rintro rfl
      have := L.1
      rw [hset] at this
      cases this
    exact Finishes.cons (a := .go) (Or.inl rfl) (s1 := ⟨s.word, s.ths.set t ⟨.reload k b, v⟩, s.fresh, s.sets⟩)
      (by simp only [step, ht, hne, if_false]) rfl (hre hset E (get_set_self ht))
  | asleep k b => cases ha
  | reload k b => exact hre hset E ht
  | sub k => exact hsub ht
  | timedOut => exact absurd rfl hto
  | _ => cases hb

example : ∃ tr s th, Exec step (init 2) tr s ∧ s.ths[0]? = some th ∧ th.blocked = true ∧ th.isAsleep = false ∧
    th.pc ≠ .timedOut ∧ flag tr = true :=
  ⟨_, _, _, exec_of_run (ls := [(0, .call .wait), (0, .go), (0, .go), (1, .call .set), (1, .go)]) rfl, rfl, rfl, rfl,
    by decide, rfl⟩

end Verif.ManualFutex
