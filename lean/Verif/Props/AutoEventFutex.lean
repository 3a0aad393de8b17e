import Verif.Proof.AutoEventFutexOverflow

/-! Properties C17-C23: `auto_reset_event` on Linux futexes. -/

namespace Verif.AutoFutex

/-- A run in which thread 0 blocks, thread 1 posts and wakes it, and thread 0 returns. -/
def demo : List (Nat × Act) :=
  [(0, .call .wait), (0, .load 0), (0, .go), (0, .go), (0, .go), (0, .go),   -- asleep
   (1, .doWork), (1, .call .post), (1, .load 1), (1, .go), (1, .wake 0),     -- post
   (0, .load 0x400001), (0, .go)]                                            -- returns

/-- The first part of `demo`: thread 0 is asleep and thread 1 has posted but not yet signalled. -/
def demoMid : List (Nat × Act) := demo.take 10

example : ∃ tr s, Exec step (init 3) tr s ∧
    tr = [.called 0 .wait, .work 1 0, .called 1 .post, .posted 1, .postDone 1, .waitDone 0] ∧ s.word.val = 0 :=
  ⟨_, _, exec_of_run (ls := demo) rfl, rfl, rfl⟩

/-- **C17.** In every execution of at most 1023 threads the number of successful waits never exceeds the number of
calls of `post`. -/
theorem C17_one_release_per_post {n : Nat} (hn : n ≤ 1023) {tr : List Ev} {s : St} (h : Exec step (init n) tr s) :
    successes tr ≤ postCalls tr := by
  obtain ⟨I, B⟩ := exec_good (sinv_init hn) h
  obtain ⟨h1, h2, _⟩ := B
  have e1 : (init n).ths.countP Th.prePost = 0 := by simp only [init]; exact countP_replicate_false rfl n
  have e2 : P (init n).word.val = 0 := P_zero
  omega

-- one post, one success
example : ∃ tr s, Exec step (init 3) tr s ∧ successes tr = 1 ∧ postCalls tr = 1 :=
  ⟨_, _, exec_of_run (ls := demo) rfl, rfl, rfl⟩

/-- **C18.** If the event is signalled and some thread is asleep waiting for it, then another thread is awake inside
one of the member functions and can take a step: it is a waiter on its way to consume the post, or a poster about to
signal the futex. -/
theorem C18_no_lost_wakeup {n : Nat} (hn : n ≤ 1023) {s : St} (h : Reachable step (init n) s)
    (hset : posts s.word.val > 0) (hsleep : ∃ th ∈ s.ths, th.isAsleep = true) :
    ∃ (j : Nat) (th : Th), s.ths[j]? = some th ∧ (th.blocked = true ∨ th.pc = .postSignal) ∧ th.isAsleep = false ∧
      ∃ a r, step s (j, a) = some r := by
  obtain ⟨tr, h⟩ := h
  have I := (exec_good (sinv_init hn) h).1
  have hpos : 0 < s.ths.countP Th.isAsleep := List.countP_pos_iff.mpr hsleep
  rw [posts_pos] at hset
  have hw := I.wake hpos
  by_cases hsig : 0 < s.ths.countP Th.signalling
  · obtain ⟨j, th, hj, hp⟩ := exists_of_countP_pos hsig
    obtain ⟨pc, v⟩ := th
    cases pc <;> first | cases hp | skip
    refine ⟨j, _, hj, Or.inr rfl, rfl, ?_⟩
    obtain ⟨i, ⟨pc', v'⟩, hi, hp'⟩ := exists_of_countP_pos hpos
    cases pc' <;> first | cases hp' | skip
    refine ⟨.wake i, ?_⟩
    simp [step, hj, hi]
  · have haw : 0 < s.ths.countP Th.awake := by omega
    obtain ⟨j, th, hj, hp⟩ := exists_of_countP_pos haw
    obtain ⟨pc, v⟩ := th
    refine ⟨j, _, hj, ?_, ?_, ?_⟩
    · left
      cases pc <;> first | rfl | cases hp
    · cases pc <;> first | rfl | cases hp
    · cases pc with
      | waitTop k old =>
        refine ⟨.go, ?_⟩
        by_cases hc : posts old = 0 <;> simp [step, hj, hc]
      | sleepCall k e =>
        refine ⟨.go, ?_⟩
        by_cases hc : s.word.val = e <;> simp [step, hj, hc]
      | reload k =>
        refine ⟨.load 0, ?_⟩
        by_cases hc : posts 0 > 0 <;> simp [step, hj, hc]
      | cas k old => exact ⟨.casFail 0, by simp [step, hj]⟩
      | toLoad => exact ⟨.load 0, by simp [step, hj]⟩
      | toLoop old => exact ⟨.casFail 0, by simp [step, hj]⟩
      | _ => cases hp

-- hypotheses of C18 are met in the middle of the demo run
example : ∃ s, Reachable step (init 3) s ∧ posts s.word.val > 0 ∧ (∃ th ∈ s.ths, th.isAsleep = true) :=
  ⟨_, ⟨_, exec_of_run (ls := demoMid) rfl⟩, by decide, ⟨_, List.mem_cons_self, rfl⟩⟩

/-- **C18**, quantitative: while anybody sleeps, every post that was not consumed yet is carried by its own thread
(an awake waiter or a poster that will signal). -/
theorem C18_every_post_is_carried {n : Nat} (hn : n ≤ 1023) {s : St} (h : Reachable step (init n) s)
    (hsleep : ∃ th ∈ s.ths, th.isAsleep = true) :
    (posts s.word.val).toNat ≤
      s.ths.countP (fun th => (th.blocked && !th.isAsleep) || decide (th.pc = .postSignal)) := by
  obtain ⟨tr, h⟩ := h
  have I := (exec_good (sinv_init hn) h).1
  have hw := I.wake (List.countP_pos_iff.mpr hsleep)
  rw [posts_toNat]
  have e : s.ths.countP (fun th => (th.blocked && !th.isAsleep) || decide (th.pc = .postSignal)) =
      s.ths.countP Th.awake + s.ths.countP Th.signalling := by
    apply countP_split
    rintro ⟨pc, v⟩
    cases pc <;> rfl
  omega

/-- **C18**, at rest: when every thread is outside or asleep and somebody sleeps, the event is not signalled. -/
theorem C18_quiescent {n : Nat} (hn : n ≤ 1023) {s : St} (h : Reachable step (init n) s) (hq : Quiescent s)
    (hsleep : ∃ th ∈ s.ths, th.isAsleep = true) : posts s.word.val = 0 := by
  apply Decidable.byContradiction
  intro hc
  have hpos : posts s.word.val > 0 := by rw [posts_pos]; rw [posts_zero] at hc; omega
  obtain ⟨j, th, hj, h1, h2, _⟩ := C18_no_lost_wakeup hn h hpos hsleep
  have := hq th (List.mem_of_getElem? hj)
  rw [h2] at this
  simp only [Bool.false_eq_true, or_false] at this
  obtain ⟨pc, v⟩ := th
  simp only [Th.idle, decide_eq_true_eq] at this
  subst this
  rcases h1 with h1 | h1 <;> cases h1

example : ∃ s, Reachable step (init 2) s ∧ Quiescent s ∧ (∃ th ∈ s.ths, th.isAsleep = true) :=
  ⟨_, ⟨_, exec_of_run (ls := demo.take 6) rfl⟩, by unfold Quiescent; decide, ⟨_, List.mem_cons_self, rfl⟩⟩

/-- **C18**, the effect of a post: from any reachable state, a `post` that is not disturbed leaves the event
signalled, with one more post than before unless all blocked threads were already provided for. -/
theorem C18_post_takes_effect {n : Nat} (hn : n ≤ 1023) {s : St} (h : Reachable step (init n) s) {t : Nat} {v : View}
    (ht : s.ths[t]? = some ⟨.idle, v⟩) :
    ∃ s1 s2 s3 e1 e3, step s (t, .call .post) = some (s1, e1) ∧ step s1 (t, .load s.word.val) = some (s2, []) ∧
      step s2 (t, .go) = some (s3, e3) ∧ posts s3.word.val > 0 ∧
      (posts s3.word.val).toNat = min ((posts s.word.val).toNat + 1) ((waiters s.word.val).toNat + 1) ∧
      waiters s3.word.val = waiters s.word.val := by
  obtain ⟨tr, h⟩ := h
  have I := (exec_good (sinv_init hn) h).1
  have hb := I.bound
  have hw := I.waiters
  have hl := I.len
  have l5 : s.ths.countP Th.blocked + 1 ≤ s.ths.length := by
    have hd := countP_add_le_length (p := Th.blocked) (q := fun x => !x.blocked) (l := s.ths)
      (by intro a h1 h2; rw [h1] at h2; cases h2)
    have := countP_pos_of_get (p := fun x : Th => !x.blocked) ht rfl
    omega
  have hlt : t < s.ths.length := (List.getElem?_eq_some_iff.mp ht).1
  refine ⟨{ s with ths := s.ths.set t ⟨.postLoad, v⟩ }, { s with ths := s.ths.set t ⟨.postLoop s.word.val, v⟩ }, ?_⟩
  have h1 : step s (t, .call .post) = some ({ s with ths := s.ths.set t ⟨.postLoad, v⟩ }, [.called t .post]) := by
    simp [step, ht]
  have h2 : step { s with ths := s.ths.set t ⟨.postLoad, v⟩ } (t, .load s.word.val) =
      some ({ s with ths := s.ths.set t ⟨.postLoop s.word.val, v⟩ }, []) := by
    simp [step, hlt]
  by_cases hge : waiters s.word.val ≥ posts s.word.val
  · have hge' := waiters_ge.mp hge
    obtain ⟨a1, a2⟩ := add_post (w := s.word.val) (by omega)
    have h3 : ∃ pc e3, step { s with ths := s.ths.set t ⟨.postLoop s.word.val, v⟩ } (t, .go) =
        some (⟨(s.word.rmw postOrder v (s.word.val + postOne)).1,
          s.ths.set t ⟨pc, (s.word.rmw postOrder v (s.word.val + postOne)).2⟩, s.fresh⟩, e3) := by
      by_cases hp : waiters s.word.val > 0
      · refine ⟨.postSignal, [.posted t], ?_⟩
        simp only [step, get_set_self ht, if_pos hge, if_pos hp, if_true, List.set_set]
      · refine ⟨.idle, [.posted t, .postDone t], ?_⟩
        simp only [step, get_set_self ht, if_pos hge, if_neg hp, if_true, List.set_set]
    obtain ⟨pc, e3, h3⟩ := h3
    refine ⟨_, _, e3, h1, h2, h3, ?_, ?_, ?_⟩
    · rw [posts_pos]; show P (s.word.val + postOne) > 0; omega
    · rw [posts_toNat, posts_toNat, waiters_toNat]; show P (s.word.val + postOne) = _; omega
    · rw [← UInt32.toNat_inj, waiters_toNat, waiters_toNat]; exact a2
  · have h3 : step { s with ths := s.ths.set t ⟨.postLoop s.word.val, v⟩ } (t, .go) =
        some ({ s with ths := s.ths.set t ⟨.idle, v⟩ }, [.postDone t]) := by
      simp only [step, get_set_self ht, if_neg hge, List.set_set]
    rw [waiters_ge] at hge
    refine ⟨_, _, _, h1, h2, h3, ?_, ?_, rfl⟩
    · rw [posts_pos]; show P s.word.val > 0; omega
    · show (posts s.word.val).toNat = _
      rw [posts_toNat, waiters_toNat]; omega

example : ∃ (s : St) (v : View), Reachable step (init 3) s ∧ s.ths[1]? = some ⟨.idle, v⟩ ∧ s.word.val = 1 :=
  ⟨_, _, ⟨_, exec_of_run (ls := demo.take 6) rfl⟩, rfl, rfl⟩

/-- **C19.** From any reachable state in which no thread is inside a blocking wait and no thread is executing `post`,
at most one wait succeeds before the next call of `post`, whatever happens. -/
theorem C19_remembers_one_post {n : Nat} (hn : n ≤ 1023) {s s' : St} {tr : List Ev} (h : Reachable step (init n) s)
    (hidle : ∀ th ∈ s.ths, th.blocked = false ∧ th.pc.posting = false) (h' : Exec step s tr s')
    (hno : postCalls tr = 0) : successes tr ≤ 1 := by
  obtain ⟨tr0, h⟩ := h
  have I := (exec_good (sinv_init hn) h).1
  obtain ⟨_, B⟩ := exec_good I h'
  obtain ⟨b1, b2, _⟩ := B
  have hb := I.bound
  have e1 : s.ths.countP Th.blocked = 0 := List.countP_eq_zero.mpr (fun th hth => by rw [(hidle th hth).1]; simp)
  have e2 : s.ths.countP Th.prePost = 0 := List.countP_eq_zero.mpr (fun th hth => by
    have := (hidle th hth).2
    obtain ⟨pc, v⟩ := th
    cases pc <;> simp_all [Th.prePost, PC.prePost, PC.posting])
  omega

-- two posts while nobody waits, then one success and one failure
example : ∃ s, Reachable step (init 2) s ∧ (∀ th ∈ s.ths, th.blocked = false ∧ th.pc.posting = false) ∧
    posts s.word.val = 1 :=
  ⟨_, ⟨_, exec_of_run (ls := [(0, .call .post), (0, .load 0), (0, .go), (1, .call .post), (1, .load 0x400000), (1, .go)])
    rfl⟩, by decide, by decide⟩

/-- **C20.** A timed wait that returns false leaves the number of posts unchanged, leaves the waiter count equal to
the number of threads still blocked (so exactly itself was removed if it had registered), changes no other thread, and
if it had been blocked no post was available at that instant. -/
theorem C20_failed_wait_consumes_nothing {n : Nat} (hn : n ≤ 1023) {s s' : St} {l : Nat × Act} {t : Nat} {es : List Ev}
    (h : Reachable step (init n) s) (hs : step s l = some (s', es)) (he : Ev.timedDone t false ∈ es) :
    posts s'.word.val = posts s.word.val ∧
    (waiters s'.word.val).toNat = s'.ths.countP Th.blocked ∧
    (∃ th th', s.ths[t]? = some th ∧ th'.pc = .idle ∧ s'.ths = s.ths.set t th' ∧
      (th.blocked = true → posts s.word.val = 0)) := by
  obtain ⟨tr, h⟩ := h
  have I := (exec_good (sinv_init hn) h).1
  obtain ⟨I', B⟩ := step_good I hs
  obtain ⟨rfl, pc, v, h1, h2, h3⟩ := step_timed_false hs he
  refine ⟨?_, by rw [waiters_toNat]; exact I'.waiters, ?_⟩
  · have := B.posts
    change 0 + _ = 0 + _ at this
    rw [← UInt32.toNat_inj, posts_toNat, posts_toNat]
    omega
  · refine ⟨_, _, h1, rfl, h2, ?_⟩
    intro hb
    rcases h3 with ⟨h3, _⟩ | ⟨_, h3, _⟩
    · rw [Th.blocked, h3] at hb; cases hb
    · exact h3

/-- **C20**, second half: a blocked timed wait whose timeout struck and which makes up its mind while a post is
available returns true and consumes exactly one post and one registration. -/
theorem C20_timeout_takes_available_post {n : Nat} (hn : n ≤ 1023) {s : St} {t : Nat} {v : View}
    (h : Reachable step (init n) s) (ht : s.ths[t]? = some ⟨.toLoop s.word.val, v⟩) (hp : posts s.word.val > 0) :
    ∃ s', step s (t, .go) = some (s', [.timedDone t true]) ∧
      (posts s'.word.val).toNat + 1 = (posts s.word.val).toNat ∧
      (waiters s'.word.val).toNat + 1 = (waiters s.word.val).toNat := by
  obtain ⟨tr, h⟩ := h
  have I := (exec_good (sinv_init hn) h).1
  rw [posts_pos] at hp
  have hz : posts s.word.val ≠ 0 := by rw [Ne, posts_zero]; omega
  have hw := I.waiters
  have := countP_pos_of_get (p := Th.blocked) ht rfl
  obtain ⟨a1, a2⟩ := sub_both hp (by omega)
  refine ⟨⟨(s.word.rmw takeOrder v (s.word.val - (postOne + 1))).1,
    s.ths.set t ⟨.idle, (s.word.rmw takeOrder v (s.word.val - (postOne + 1))).2⟩, s.fresh⟩, ?_, ?_, ?_⟩
  · simp only [step, ht, if_neg hz, if_true]
  · rw [posts_toNat, posts_toNat]; show P (s.word.val - (postOne + 1)) + 1 = _; rw [a1]; omega
  · rw [waiters_toNat, waiters_toNat]; show W (s.word.val - (postOne + 1)) + 1 = _; rw [a2]; omega

/-- Thread 0 blocks in a timed wait and times out. -/
def demoTimeout : List (Nat × Act) :=
  [(0, .call .timedWait), (0, .load 0), (0, .go), (0, .go), (0, .go), (0, .go), (0, .timeout), (0, .load 1)]

-- the timeout of a blocked thread ...
example : ∃ (s s' : St), Reachable step (init 2) s ∧ step s (0, .go) = some (s', [.timedDone 0 false]) ∧
    s.word.val = 1 ∧ s'.word.val = 0 :=
  ⟨_, _, ⟨_, exec_of_run (ls := demoTimeout) rfl⟩, rfl, rfl, rfl⟩

-- ... and with a post arriving in between
example : ∃ (s : St) (v : View), Reachable step (init 2) s ∧ s.ths[0]? = some ⟨.toLoop s.word.val, v⟩ ∧
    posts s.word.val > 0 :=
  ⟨_, _, ⟨_, exec_of_run (ls := demoTimeout ++
    [(1, .call .post), (1, .load 1), (1, .go), (1, .wakeNone), (0, .go)]) rfl⟩, rfl, by decide⟩

/-- **C21 (refuted).**  With `k ≥ 1024` threads blocked in `wait()`, 1024 completed posts may release nobody: the ten-bit
post counter wraps to zero.  From a state in which exactly `k` threads sleep, an execution with 1024 returned posts and
no successful wait leads back to the same state, in which all `k` threads sleep again. -/
theorem C21_refuted (k : Nat) (hk : 1024 ≤ k) (hk' : k < 2 ^ 22) :
    ∃ s tr, Reachable step (init (k + 1)) s ∧ s.ths.countP Th.isAsleep = k ∧ Quiescent s ∧
      Exec step s tr s ∧ postsDone tr = 1024 ∧ successes tr = 0 := by
  obtain ⟨⟨t1, e1, _, _⟩, ⟨t2, e2, h2, h3⟩⟩ := path_overflow k hk hk'
  refine ⟨_, t2, ⟨t1, e1⟩, ?_, ?_, e2, h2, h3⟩
  · simp only [St3, List.countP_append, List.replicate_zero, List.nil_append]
    have : (List.replicate k (⟨.asleep .wait, []⟩ : Th)).countP Th.isAsleep = k := by
      rw [List.countP_replicate]; rfl
    rw [this]; rfl
  · intro th hth
    simp only [St3, List.replicate_zero, List.nil_append, List.mem_append, List.mem_replicate,
      List.mem_singleton] at hth
    rcases hth with ⟨_, rfl⟩ | rfl
    · exact Or.inr rfl
    · exact Or.inl rfl

-- 1024 blocked threads, 1024 posts
example : (1024 : Nat) ≤ 1024 ∧ 1024 < 2 ^ 22 := by decide

/-- **C21 (partial).**  Missing with respect to the full claim: it only holds for fewer than 1024 threads.
From any reachable state, if no further wait is called, at least as many posts take effect as there are threads inside
waiting functions, and all threads came to rest again, then nobody is left asleep. -/
theorem C21_all_released_partial {n : Nat} (hn : n ≤ 1023) {s s' : St} {tr : List Ev} (h : Reachable step (init n) s)
    (hq : Quiescent s) (h' : Exec step s tr s') (hno : waitCalls tr = 0)
    (hposts : s.ths.countP Th.isAsleep ≤ postsMade tr) (hq' : Quiescent s') :
    ∀ th ∈ s'.ths, th.isAsleep = false := by
  have hr' : Reachable step (init n) s' := h.trans ⟨tr, h'⟩
  obtain ⟨tr0, h0⟩ := h
  have I := (exec_good (sinv_init hn) h0).1
  obtain ⟨I', B⟩ := exec_good I h'
  obtain ⟨b1, _, b3⟩ := B
  intro th hth
  apply Decidable.byContradiction
  intro hc
  have hc : th.isAsleep = true := by simpa using hc
  have hz := C18_quiescent hn hr' hq' ⟨th, hth, hc⟩
  rw [posts_zero] at hz
  have hpos : 0 < s'.ths.countP Th.isAsleep := List.countP_pos_iff.mpr ⟨th, hth, hc⟩
  have e1 : s.ths.countP Th.inWait ≤ s.ths.countP Th.isAsleep := by
    apply List.countP_mono_left
    intro x hx hp
    rcases hq x hx with h | h
    · obtain ⟨pc, v⟩ := x
      simp only [Th.idle, decide_eq_true_eq] at h
      subst h; cases hp
    · exact h
  have e2 : s'.ths.countP Th.isAsleep ≤ s'.ths.countP Th.inWait := by
    apply countP_le
    rintro ⟨pc, v⟩ hp
    cases pc <;> first | (cases hp; done) | rfl
  omega

-- one thread asleep, one post, released
example : ∃ (s s' : St) (tr : List Ev), Reachable step (init 3) s ∧ Quiescent s ∧ Exec step s tr s' ∧ waitCalls tr = 0 ∧
    s.ths.countP Th.isAsleep = 1 ∧ postsMade tr = 1 ∧ Quiescent s' :=
  ⟨_, _, _, ⟨_, exec_of_run (ls := demo.take 6) rfl⟩, by unfold Quiescent; decide,
    exec_of_run (ls := demo.drop 6) rfl, rfl, rfl, rfl, by unfold Quiescent; decide⟩

/-- **C22 (refuted).**  A post on an event that is already signalled publishes nothing: thread 0 works and posts (the
post returns), thread 1 waits afterwards and succeeds, but does not see thread 0's work. -/
theorem C22_refuted : ∃ (tr : List Ev) (s : St) (th : Th), Exec step (init 3) tr s ∧
    tr = [.called 2 .post, .posted 2, .postDone 2, .work 0 0, .called 0 .post, .postDone 0, .called 1 .wait, .waitDone 1] ∧
    Published relDocOf workOf tr 0 ∧ s.ths[1]? = some th ∧ 0 ∉ th.view :=
  ⟨_, _, _, exec_of_run (ls := [(2, .call .post), (2, .load 0), (2, .go), (0, .doWork), (0, .call .post),
      (0, .load 0x400000), (0, .go), (1, .call .wait), (1, .load 0x400000), (1, .go)]) rfl, rfl,
    ⟨[.called 2 .post, .posted 2, .postDone 2, .work 0 0, .called 0 .post], _, .postDone 0, 0, .work 0 0, rfl, rfl,
      by decide, rfl⟩, rfl, by decide⟩

/-- **C22 (partial).**  Missing: posts that find the event already signalled (they only execute a fence).
Whenever a wait succeeds, its thread sees everything that any thread did before a post of its own that took effect
earlier — with no bound on the number of threads. -/
theorem C22_effective_post_publishes_partial {n : Nat} {tr es : List Ev} {s s' : St} {l : Nat × Act} {e : Ev} {t id : Nat}
    (h : Exec step (init n) tr s) (hs : step s l = some (s', es)) (he : e ∈ es) (hsucc : successOf e = some t)
    (hp : Published relOf workOf tr id) : ∃ th, s'.ths[t]? = some th ∧ id ∈ th.view := by
  obtain ⟨th, h1, h2⟩ := (step_view hs).succ e he t hsucc
  exact ⟨th, h1, h2 ((vinv_exec h).pub id hp)⟩

example : ∃ (tr es : List Ev) (s s' : St), Exec step (init 3) tr s ∧ step s (0, .go) = some (s', es) ∧
    Ev.waitDone 0 ∈ es ∧ Published relOf workOf tr 0 :=
  ⟨_, _, _, _, exec_of_run (ls := demo.take 12) rfl, rfl, by decide,
    ⟨[.called 0 .wait, .work 1 0, .called 1 .post], [.postDone 1], .posted 1, 1, .work 1 0, rfl, rfl, by decide, rfl⟩⟩

/-- Thread 0 blocks in `wait()`; thread 1 then posts twice and calls `try_wait` twice, successfully, while thread 0
has not returned. -/
def demoTwo : List (Nat × Act) :=
  [(0, .call .wait), (0, .load 0), (0, .go), (0, .go), (0, .go), (0, .go),
   (1, .call .post), (1, .load 1), (1, .go), (1, .wake 0),
   (1, .call .post), (1, .load 0x400001), (1, .go), (1, .wakeNone),
   (1, .call .tryWait), (1, .load 0x800001), (1, .go),
   (1, .call .tryWait), (1, .load 0x400001), (1, .go)]

/-- **C23 (refuted).**  Some history of the event is not explainable by a single flag: two posts in a row with nothing
in between, followed by two successful `try_wait` calls of the same thread. -/
theorem C23_refuted : ∃ (n : Nat) (tr : List Ev) (s : St), Exec step (init n) tr s ∧
    ¬ BinEvent.Linearizable n (history tr) :=
  ⟨2, _, _, exec_of_run (ls := demoTwo) rfl, BinEvent.not_linearizable_of_refutes (by decide +kernel)⟩

/-- **C23 (partial).**  Missing: the event is not a single flag.  What holds instead: it is a counter, posts that took
effect minus successful waits, which never exceeds the number of blocked threads by more than one; without blocked
threads it is a flag. -/
theorem C23_counter_partial {n : Nat} (hn : n ≤ 1023) {tr : List Ev} {s : St} (h : Exec step (init n) tr s) :
    postsMade tr = successes tr + (posts s.word.val).toNat ∧
    (posts s.word.val).toNat ≤ s.ths.countP Th.blocked + 1 := by
  obtain ⟨I, B⟩ := exec_good (sinv_init hn) h
  have := B.posts
  rw [show P (init n).word.val = 0 from P_zero] at this
  rw [posts_toNat]
  exact ⟨this, I.bound⟩

-- at the end of the refuting run both sides are attained
example : ∃ tr s, Exec step (init 2) tr s ∧ postsMade tr = 2 ∧ successes tr = 2 ∧ s.ths.countP Th.blocked = 1 :=
  ⟨_, _, exec_of_run (ls := demoTwo) rfl, rfl, rfl, rfl⟩

end Verif.AutoFutex
