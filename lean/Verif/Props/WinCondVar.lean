import Verif.Proof.WinCondVarTerm

/-!
# The Windows condition variable: properties C34 - C38

For any number of threads, any mix of `wait`, timed waits (with a duration or a time point), `notify_one` and `notify_all`,
any interleaving, any timeouts and any failures of the operating system.
-/

namespace Verif.WinCv

/-! ## Concrete executions -/

/-- Thread 0 waits, thread 1 waits, thread 2 notifies both, then thread 1, which was already notified, times out. -/
def demoAll : List (Nat × Act) :=
  [(0, .userLock), (0, .callWait .wait), (0, .go), (0, .go), (0, .go), (0, .go),
   (1, .userLock), (1, .callWait .rel), (1, .go), (1, .go), (1, .go), (1, .go), (1, .go),
   (2, .callNotify true), (2, .go), (2, .go), (2, .go), (2, .go), (2, .go),
   (1, .timeout), (1, .go), (1, .go), (1, .go),
   (1, .userUnlock), (0, .go), (0, .go), (0, .go), (0, .go)]

example : ∃ tr s, Exec step (init 3) tr s ∧ Ev.ret 0 .noTimeout ∈ tr ∧ Ev.ret 1 .noTimeout ∈ tr ∧
    granted 1 tr = 2 ∧ consumed 1 tr = 2 ∧ s.total = 0 ∧ waiting s = 0 :=
  ⟨_, _, exec_of_run (ls := demoAll) rfl, by decide, by decide, by decide, by decide, rfl, rfl⟩

/-- Thread 0 is blocked and notified; thread 1 starts to wait before thread 0 wakes up: it has to use a second node and
stays blocked. -/
def demoSecond : List (Nat × Act) :=
  [(0, .userLock), (0, .callWait .wait), (0, .go), (0, .go), (0, .go), (0, .go),
   (2, .callNotify false), (2, .go), (2, .go), (2, .go), (2, .go), (2, .go),
   (1, .userLock), (1, .callWait .wait), (1, .go), (1, .go), (1, .go), (1, .go), (1, .go), (1, .go)]

example : ∃ tr s, Exec step (init 3) tr s ∧ s.nodes.length = 2 ∧ allConsumed tr < allGranted tr ∧ s.total = 1 ∧
    waiting s = 2 ∧ s.owner = none ∧ step s (1, .go) = none ∧ (step s (0, .go)).isSome :=
  ⟨_, _, exec_of_run (ls := demoSecond) rfl, rfl, by decide, rfl, rfl, rfl, rfl, rfl⟩

/-- ... then the other one is woken and returns. -/
example : ∃ tr s, Exec step (init 3) tr s ∧ Ev.took 0 1 ∈ tr ∧ born 1 tr = 1 ∧ born 0 tr = 0 :=
  ⟨_, _, exec_of_run (ls := demoSecond ++ [(0, .go), (0, .go), (0, .go), (0, .go)]) rfl, by decide, rfl, rfl⟩

/-- The OS wait fails. -/
def demoFail : List (Nat × Act) :=
  [(0, .userLock), (0, .callWait .abs), (0, .go), (0, .go), (0, .go), (0, .go), (0, .go),
   (0, .fail), (0, .go), (0, .go), (0, .go)]

example : ∃ tr s, Exec step (init 1) tr s ∧ Ev.ret 0 .threw ∈ tr ∧ s.user = some 0 ∧ unlocksInCall 0 tr = 1 ∧ s.total = 0 :=
  ⟨_, _, exec_of_run (ls := demoFail) rfl, by decide, rfl, by decide, rfl⟩

/-- Creating the first semaphore fails. -/
example : ∃ tr s, Exec step (init 1) tr s ∧ Ev.ret 0 .threw ∈ tr ∧ s.user = some 0 ∧ unlocksInCall 0 tr = 0 ∧ s.owner = none :=
  ⟨_, _, exec_of_run (ls := [(0, .userLock), (0, .callWait .wait), (0, .go), (0, .fail), (0, .go)]) rfl, by decide, rfl,
    by decide, rfl⟩

/-! ## C34: the waiter count -/

/-- **C34.**  In every reachable state `m_total_waiter_count` is the number of threads that wait minus the notification units
granted and not yet consumed; that difference is never negative. -/
theorem C34_total_count {n : Nat} {tr : List Ev} {s : St} (h : Exec step (init n) tr s) :
    s.total = unnotified tr s ∧ allConsumed tr ≤ allGranted tr ∧ allGranted tr - allConsumed tr ≤ waiting s := by
  have := total_eq h
  unfold unnotified
  omega

/-- The counters of the individual nodes: the number of threads that wait in the node; the notified ones are not more
than those, and both counters fit into the type `long` of the semaphore. -/
theorem C34_node_counts {n : Nat} {tr : List Ev} {s : St} (h : Exec step (init n) tr s) (q : Nat) (x : Node)
    (hx : s.nodes[q]? = some x) : x.w = s.ths.countP (PC.reg q) ∧ x.n ≤ x.w ∧ x.w ≤ 2147483647 := by
  obtain ⟨_, hc⟩ := counts_exec h
  refine ⟨?_, (hc.ok q x hx).le, (hc.ok q x hx).max⟩
  rw [hc.reg q]; simp [wOf, hx]

/-! ## C35: no lost notification -/

/-- **C35.**  If a granted unit is not consumed yet, some waiting thread or the owner of the internal mutex can take a
step, although failures of `ReleaseSemaphore` are ignored (with at most 2^30 threads). -/
theorem C35_no_lost_wakeup {n : Nat} {tr : List Ev} {s : St} (h : Exec step (init n) tr s) (hn : n ≤ 1073741824)
    (ho : allConsumed tr < allGranted tr) :
    ∃ (t : Nat) (pc : PC) (s' : St) (es : List Ev), s.ths[t]? = some pc ∧ (pc.waiting = true ∨ s.owner = some t) ∧
      step s (t, .go) = some (s', es) :=
  outstanding_go h hn ho

/-- **C35.**  There are no infinite runs without new calls: the threads cannot pass the semaphore units around forever.
Together with `C35_quiescent` all notifications granted are consumed. -/
theorem C35_runs_end {n : Nat} {tr : List Ev} {s : St} (h : Exec step (init n) tr s) (f : Nat → St) (h0 : f 0 = s) :
    ¬ ∀ i, ∃ t a es, (a = Act.go ∨ a = .timeout ∨ a = .fail) ∧ step (f i) (t, a) = some (f (i + 1), es) := by
  intro hinf
  have hacc := inner_acc (good_exec h)
  have key : ∀ s, Acc (fun b a => Inner a b) s → ∀ i, f i = s → False := by
    intro s hs
    induction hs with
    | intro s _ ih =>
      intro i hi
      refine ih (f (i + 1)) ?_ (i + 1) rfl
      rw [← hi]
      exact hinf i
  exact key s hacc 0 h0

/-- **C35.**  When no thread inside a function can run, every unit has been consumed (with at most 2^30 threads). -/
theorem C35_quiescent {n : Nat} {tr : List Ev} {s : St} (h : Exec step (init n) tr s) (hn : n ≤ 1073741824)
    (hq : ∀ t, step s (t, .go) = none) : allConsumed tr = allGranted tr := by
  have h1 := (total_eq h).2
  apply Decidable.byContradiction
  intro hne
  obtain ⟨t, _, s', es, _, _, hs⟩ := outstanding_go h hn (by omega)
  rw [hq t] at hs; cases hs

/-- A state as in the hypothesis of `C35_quiescent`: one thread is left blocked, not notified. -/
example : ∃ tr s, Exec step (init 1) tr s ∧ waiting s = 1 ∧ ∀ t, step s (t, .go) = none := by
  refine ⟨_, _, exec_of_run (ls := [(0, .userLock), (0, .callWait .wait), (0, .go), (0, .go), (0, .go), (0, .go)]) rfl, rfl, ?_⟩
  intro t
  cases t with
  | zero => rfl
  | succ t => rfl

/-! ## C36: later waiters do not steal notifications -/

/-- **C36.**  When thread `t` consumes a unit of the `c`-th notify call, that call did its bookkeeping after `t` started
to wait. -/
theorem C36_no_stealing {n : Nat} {tr pre post : List Ev} {s : St} {t c : Nat} (h : Exec step (init n) tr s)
    (he : tr = pre ++ .took t c :: post) : born t pre < c ∧ c ≤ decisions pre := by
  obtain ⟨s1, u, a, s2, h1, ha, _⟩ := exec_cut h he
  have h2 := step_sound ha
  have hs := stamps_exec h1
  have hc := (counts_exec h1).2
  have hb : t = u := (step_by h2).1 _ (List.mem_singleton.mpr rfl)
  subst hb
  generalize hes : [Ev.took t c] = es at h2
  cases h2 with
  | goto h hg => cases hg <;> cases hes
  | exit h hg => cases hg <;> cases hes
  | @leave pc q r x h hl hx hn =>
    cases hes
    have hlen := (hc.ok _ _ hx).len
    obtain ⟨d, us, hus⟩ : ∃ d us, x.units = d :: us := by
      cases hu : x.units with
      | nil => rw [hu] at hlen; simp at hlen; omega
      | cons d us => exact ⟨d, us, rfl⟩
    have hm : x.units.headD 0 ∈ x.units := by rw [hus]; simp
    refine ⟨hs.stamp _ q pc x h (by cases hl <;> exact beq_self_eq_true _) hx _ hm, ?_⟩
    rw [← hs.calls]
    exact hs.le q x hx _ hm
  | _ => cases hes

/-- Thread 0 takes the unit of the first notification; thread 1, which came later, does not. -/
example : ∃ tr s pre post, Exec step (init 3) tr s ∧ tr = pre ++ .took 0 1 :: post ∧ decisions pre = 1 ∧ born 1 pre = 1 :=
  ⟨_, _, [.called 0 .wait, .registered 0, .unlocked 0, .notify 2 false, .decided 2 false 1, .issued 2 1, .notified 2,
      .called 1 .wait, .registered 1, .unlocked 1], [],
    exec_of_run (r := (_, _)) (ls := demoSecond ++ [(0, .go), (0, .go), (0, .go)]) rfl, rfl, by decide, by decide⟩

/-! ## C37: units -/

/-- **C37.**  Every unit is consumed at most once: the waiters never take more from a notify call than it granted. -/
theorem C37_units_conserved {n : Nat} {tr : List Ev} {s : St} (h : Exec step (init n) tr s) (c : Nat) :
    consumed c tr ≤ granted c tr := by
  have := (grants_exec h).per c
  omega

/-- **C37.**  A wait that reports `no_timeout` consumed exactly one unit, one that reports `timeout` none.  A wait that
throws consumed at most one. -/
theorem C37_return_units {n : Nat} {tr pre post : List Ev} {s : St} {t : Nat} {r : Result} (h : Exec step (init n) tr s)
    (he : tr = pre ++ .ret t r :: post) :
    (r = .noTimeout → unitsInCall t pre = 1) ∧ (r = .timeout → unitsInCall t pre = 0) ∧ unitsInCall t pre ≤ 1 := by
  obtain ⟨s1, u, a, s2, h1, ha, _⟩ := exec_cut h he
  have h2 := step_sound ha
  have hc := calls_exec h1
  have hb : t = u := (step_by h2).1 _ (List.mem_singleton.mpr rfl)
  subst hb
  generalize hes : [Ev.ret t r] = es at h2
  cases h2 with
  | goto h hg =>
    cases hg <;> cases hes
    have := hc _ _ h
    simp only [PC.callOk] at this
    exact ⟨(fun h => by cases h), (fun h => by cases h), by omega⟩
  | exit h hg =>
    cases hg <;> cases hes
    have := hc _ _ h
    simp only [PC.callOk] at this
    exact ⟨(fun h => by cases h), (fun h => by cases h), by omega⟩
  | @relock r' h hu =>
    cases hes
    have := hc _ _ h
    cases r <;> simp only [PC.callOk] at this <;>
      refine ⟨fun h => ?_, fun h => ?_, by omega⟩ <;> first | omega | cases h
  | _ => cases hes

/-- **C37.**  `notify_one` grants one unit if some thread waits without having been notified and none otherwise;
`notify_all` grants as many units as there are such threads. -/
theorem C37_notify_grants {n : Nat} {tr pre post : List Ev} {s : St} {t m : Nat} {all : Bool}
    (h : Exec step (init n) tr s) (he : tr = pre ++ .decided t all m :: post) :
    ∃ s1, Exec step (init n) pre s1 ∧ m = if all then unnotified pre s1 else min 1 (unnotified pre s1) := by
  obtain ⟨s1, u, a, s2, h1, ha, _⟩ := exec_cut h he
  have h2 := step_sound ha
  refine ⟨s1, h1, ?_⟩
  have htot := (C34_total_count h1).1
  generalize hes : [Ev.decided t all m] = es at h2
  cases h2 with
  | goto h hg => cases hg <;> cases hes
  | exit h hg => cases hg <;> cases hes
  | decide0 h h0 =>
    cases hes
    rw [← htot, h0]; cases all <;> rfl
  | decide h h0 hc =>
    cases hes
    rw [← htot, hc]
    cases all
    · simp only [Bool.false_eq_true, if_false]; omega
    · rfl
  | _ => cases hes

/-- **C37.**  A notify call that returns without having locked the mutex saw a state in which every waiting thread had been
notified already. -/
theorem C37_notify_skip {n : Nat} {tr : List Ev} {s s' : St} {t : Nat} {all : Bool} {es : List Ev}
    (h : Exec step (init n) tr s) (ht : s.ths[t]? = some (.nLoad all)) (hs : step s (t, .go) = some (s', es)) :
    (Ev.notified t ∈ es) ↔ unnotified tr s = 0 := by
  have htot := (C34_total_count h).1
  rw [← htot]
  simp only [step, ht] at hs
  split at hs
  · next hp => cases hs; simp; omega
  · next hp => cases hs; simp; omega

/-- A notification that finds nobody, and one that finds a thread. -/
example : ∃ tr s tr₂ s₂, Exec step (init 2) tr s ∧ s.ths[1]? = some (.nLoad true) ∧ (step s (1, .go)).map Prod.snd = some [.notified 1] ∧
    Exec step (init 2) tr₂ s₂ ∧ s₂.ths[1]? = some (.nLoad true) ∧ unnotified tr₂ s₂ = 1 ∧ (step s₂ (1, .go)).map Prod.snd = some [] :=
  ⟨_, _, _, _, exec_of_run (r := (_, _)) (ls := [(1, .callNotify true)]) rfl, rfl, rfl,
    exec_of_run (r := (_, _)) (ls := [(0, .userLock), (0, .callWait .wait), (0, .go), (0, .go), (0, .go), (0, .go), (1, .callNotify true)]) rfl, rfl, rfl, rfl⟩

/-- **C37.**  All granted units are put into the semaphores before the mutex is unlocked again. -/
theorem C37_units_issued {n : Nat} {tr : List Ev} {s : St} (h : Exec step (init n) tr s) (ho : s.owner = none) :
    allIssued tr = allGranted tr := by
  have h1 := issued_exec h
  have hl := (counts_exec h).1
  have hz : sumOn PC.toWake s.ths = 0 := by
    apply Decidable.byContradiction
    intro hne
    obtain ⟨u, x, hu, hx⟩ := sumOn_pos (Nat.pos_of_ne_zero hne)
    have hxh : x.holds = true := by cases x <;> first | rfl | (simp [PC.toWake] at hx)
    have := hl.own u x hu hxh
    rw [ho] at this; cases this
  omega

/-- **C37.**  The notify loop ends: for every reachable state with thread `t` in the loop there is a bound on the number of
iterations `t` makes before it returns, whatever the other threads do; and `t` is never blocked. -/
theorem C37_loop_ends {n : Nat} {tr : List Ev} {s : St} {t c : Nat} (h : Exec step (init n) tr s)
    (ht : s.ths[t]? = some (.waking c)) :
    (∃ k, ∀ tr' s', Exec step s tr' s' → Ev.notified t ∉ tr' → tr'.countP (Ev.isIssued t) ≤ k) ∧
    ∃ s' es, step s (t, .go) = some (s', es) := by
  obtain ⟨hl, hc⟩ := counts_exec h
  refine ⟨?_, owner_go hc (ring_exec h) ht rfl⟩
  obtain ⟨k, hk⟩ := wakeIn_reachable h ht
  refine ⟨k, ?_⟩
  intro tr' s' h' hn
  rcases (wake_bound hl ht hk h').2 with h1 | ⟨h1, _⟩ | ⟨_, _, _, _, h1⟩
  · exact absurd h1 hn
  · exact h1
  · omega

/-- A notify loop that has to visit two nodes. -/
example : ∃ tr s, Exec step (init 4) tr s ∧ s.ths[3]? = some (.waking 2) ∧ s.nodes.length = 2 :=
  ⟨_, _, exec_of_run (ls := demoSecond ++ [(0, .go), (0, .go), (0, .go), (0, .go), (0, .callWait .wait),
    (0, .go), (0, .go), (0, .go), (0, .go), (0, .go), (3, .callNotify true), (3, .go), (3, .go), (3, .go)]) rfl, rfl, rfl⟩

/-! ## C38: the caller's lock -/

/-- **C38.**  Whenever a wait returns or throws, the thread owns the user lock. -/
theorem C38_lock_held {n : Nat} {tr pre post : List Ev} {s : St} {t : Nat} {r : Result} (h : Exec step (init n) tr s)
    (he : tr = pre ++ .ret t r :: post) :
    ∃ s1, Exec step (init n) (pre ++ [.ret t r]) s1 ∧ s1.user = some t ∧ Exec step s1 post s := by
  obtain ⟨s1, u, a, s2, h1, ha, h3⟩ := exec_cut h he
  have h2 := step_sound ha
  have hl := (counts_exec h1).1
  have hb : t = u := (step_by h2).1 _ (List.mem_singleton.mpr rfl)
  subst hb
  have huser : s2.user = some t := by
    generalize hes : [Ev.ret t r] = es at h2
    cases h2 with
    | goto h hg => cases hg <;> cases hes; exact hl.early _ _ h rfl
    | exit h hg => cases hg <;> cases hes; exact hl.early _ _ h rfl
    | relock h hu => cases hes; rfl
    | _ => cases hes
  exact ⟨s2, h1.snoc ha, huser, h3⟩

/-- **C38.**  During one call the user lock is unlocked at most once; a call that returns normally unlocked it exactly
once. -/
theorem C38_unlock_once {n : Nat} {tr pre post : List Ev} {s : St} {t : Nat} {r : Result} (h : Exec step (init n) tr s)
    (he : tr = pre ++ .ret t r :: post) : unlocksInCall t pre ≤ 1 ∧ (r ≠ .threw → unlocksInCall t pre = 1) := by
  obtain ⟨s1, u, a, s2, h1, ha, _⟩ := exec_cut h he
  have h2 := step_sound ha
  have hc := calls_exec h1
  have hb : t = u := (step_by h2).1 _ (List.mem_singleton.mpr rfl)
  subst hb
  generalize hes : [Ev.ret t r] = es at h2
  cases h2 with
  | goto h hg =>
    cases hg <;> cases hes
    have := hc _ _ h
    simp only [PC.callOk] at this
    exact ⟨by omega, fun h => absurd rfl h⟩
  | exit h hg =>
    cases hg <;> cases hes
    have := hc _ _ h
    simp only [PC.callOk] at this
    exact ⟨by omega, fun h => absurd rfl h⟩
  | @relock r' h hu =>
    cases hes
    have := hc _ _ h
    cases r <;> simp only [PC.callOk] at this <;> exact ⟨by omega, fun _ => by omega⟩
  | _ => cases hes

/-- **C38.**  The lock is owned all the time before it is unlocked and not owned by the thread afterwards, until the call
ends. -/
theorem C38_lock_during {n : Nat} {tr : List Ev} {s : St} {t : Nat} {pc : PC} (h : Exec step (init n) tr s)
    (ht : s.ths[t]? = some pc) : (pc.early = true → s.user = some t) ∧ (pc.late = true → s.user ≠ some t) :=
  ⟨(counts_exec h).1.early t pc ht, (counts_exec h).1.late t pc ht⟩

/-- **C38.**  A failure (allocation, semaphore creation, timer, OS wait) by itself changes none of the counters and none of the
nodes.  The bookkeeping of the failed wait, done afterwards, keeps the count of C34 right. -/
theorem C38_failure_keeps_state {s s' : St} {t : Nat} {es : List Ev} (h : step s (t, .fail) = some (s', es)) :
    s'.nodes = s.nodes ∧ s'.notify = s.notify ∧ s'.waitSt = s.waitSt ∧ s'.total = s.total ∧ s'.user = s.user := by
  unfold step at h
  simp only at h
  split at h
  · cases h
  next pc ht =>
  cases pc <;> simp only at h <;> first
    | (cases h; done)
    | (split at h <;> first | (cases h; done) | (cases h; exact ⟨rfl, rfl, rfl, rfl, rfl⟩))
    | (cases h; exact ⟨rfl, rfl, rfl, rfl, rfl⟩)

/-- The wait of the OS fails. -/
example : ∃ tr s s' es, Exec step (init 1) tr s ∧ step s (0, .fail) = some (s', es) ∧ s.total = 1 :=
  ⟨_, _, _, _, exec_of_run (r := (_, _)) (ls := demoFail.take 7) rfl, rfl, rfl⟩

end Verif.WinCv
