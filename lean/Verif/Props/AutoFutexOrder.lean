import Verif.Proof.AutoFutexOrder

/-!
# C90: what a post and a failing wait find, in the auto_reset_event on futexes

`post` loads the word with a relaxed load, and gives up if what it has loaded shows more posts than waiters.  It may have loaded a value that is out of date; then a thread
that is blocked stays blocked.  What is true is that the value was current at some instant that is not before anything the thread knows of.
-/

namespace Verif.AutoFutexOrder

open AutoFutex (PC Th posts waiters Quiescent postsMade successes postCalls P W)

/-- **C90**, refuted: thread 2 is blocked in its second `wait`, all the posts so far are used up, and thread 1 posts.  The post returns, and thread 2 stays asleep: every
thread is outside or asleep. -/
theorem C90_lost_refuted : ∃ tr s, Exec step (init 3) tr s ∧
    tr = [.ev (.called 0 .post), .changed 0 0x400000, .ev (.posted 0), .ev (.postDone 0),
      .ev (.called 2 .wait), .changed 2 0, .ev (.waitDone 2), .ev (.called 2 .wait), .changed 2 1,
      .ev (.called 1 .post), .ev (.postDone 1)] ∧
    s.base.ths.map Th.pc = [.idle, .idle, .asleep .wait] ∧ Quiescent s.base := by
  refine ⟨_, _, exec_of_run (ls := [(0, .op (.call .post)), (0, .load 0), (0, .op .go), (2, .op (.call .wait)), (2, .load 1), (2, .op .go),
    (2, .op (.call .wait)), (2, .load 2), (2, .op .go), (2, .op .go), (2, .op .go), (2, .op .go), (1, .op (.call .post)), (1, .load 1), (1, .op .go)]) rfl, rfl, rfl, ?_⟩
  unfold Quiescent
  decide

/-- A post that returns without having changed the word does so only if, at an instant that is not before anything the thread knows of, the posts that were not taken yet
outnumbered the waiters. -/
theorem C90_dropped_partial {n : Nat} (hn : n ≤ 1023) {tr es a b : List Ev} {s s' : St} (h : Exec step (init n) tr s) {t : Nat} {l : Act}
    (hs : step s (t, l) = some (s', es)) (hcall : tr = a ++ .ev (.called t .post) :: b) (hno : .ev (.posted t) ∉ b ++ es) (hret : .ev (.postDone t) ∈ es)
    {th : Th} (ht : s.base.ths[t]? = some th) :
    Instant n t th.view tr s (fun es b => successes es + b.ths.countP Th.blocked < postsMade es) := by
  obtain ⟨th', p, a', b', es', k1, k2, k3, k4, k5⟩ := base_of_ev hs hret
  rw [ht] at k1; cases k1
  rw [List.mem_append, not_or] at hno
  have hw : ∃ old, th.pc = .postLoop old ∧ ¬ waiters old ≥ posts old := by
    rcases post_returns ht k3 k4 (fun hm => hno.2 ((k5 _).mpr hm)) with hp | hw
    · obtain ⟨c, d, e, hd⟩ := signalled h t th ht hp
      rw [hcall] at e
      rcases split_append e with ⟨b'', h1, h2⟩ | ⟨c', h1, h2⟩
      · exact absurd (by rw [h2]; simp) (hd .post)
      · cases c' with
        | nil => cases h2
        | cons x c' =>
          simp only [List.cons_append, List.cons.injEq] at h2
          exact absurd (by rw [h2.2]; simp) hno.1
    · exact hw
  obtain ⟨old, hpc, hw⟩ := hw
  refine (copy_instant h ht k2 ((inv_exec h).copies t th p old ht k2 (by rw [hpc]; rfl))).mono ?_
  intro tr₁ s₁ h₁ hv
  obtain ⟨I, B⟩ := base_exec (AutoFutex.sinv_init hn) h₁
  have e1 := I.waiters
  have e2 := B.posts
  have e3 : P (init n).base.word.val = 0 := AutoFutex.P_zero
  rw [hv] at e1 e2
  rw [ge_iff_le, UInt32.le_iff_toNat_le, AutoFutex.posts_toNat, AutoFutex.waiters_toNat] at hw
  omega

/-- A `try_wait` or timed wait reports failure only if, at an instant that is not before anything the thread knows of, all posts had been taken. -/
theorem C90_fails_partial {n : Nat} (hn : n ≤ 1023) {tr es : List Ev} {s s' : St} (h : Exec step (init n) tr s) {t : Nat} {l : Act}
    (hs : step s (t, l) = some (s', es)) (hret : .ev (.tryDone t false) ∈ es ∨ .ev (.timedDone t false) ∈ es) {th : Th} (ht : s.base.ths[t]? = some th) :
    Instant n t th.view tr s (fun es _ => postsMade es = successes es) := by
  have taken : ∀ tr₁ s₁, Exec step (init n) tr₁ s₁ → posts s₁.base.word.val = 0 → postsMade (plain tr₁) = successes (plain tr₁) := by
    intro tr₁ s₁ h₁ hv
    obtain ⟨I, B⟩ := base_exec (AutoFutex.sinv_init hn) h₁
    have e2 := B.posts
    have e3 : P (init n).base.word.val = 0 := AutoFutex.P_zero
    have e4 := AutoFutex.posts_zero.mp hv
    omega
  obtain ⟨e, he, hm⟩ : ∃ e, .ev e ∈ es ∧ (e = .tryDone t false ∨ e = .timedDone t false) := by
    rcases hret with h | h
    · exact ⟨_, h, .inl rfl⟩
    · exact ⟨_, h, .inr rfl⟩
  obtain ⟨th', p, a', b', es', k1, k2, k3, k4, _⟩ := base_of_ev hs he
  rw [ht] at k1; cases k1
  rcases fails ht k3 (by rcases hm with rfl | rfl; exact .inl k4; exact .inr k4) with ⟨k, old, hpc, hz⟩ | hz
  · refine (copy_instant h ht k2 ((inv_exec h).copies t th p old ht k2 (by rw [hpc]; rfl))).mono ?_
    intro tr₁ s₁ h₁ hv
    refine taken tr₁ s₁ h₁ ?_
    rw [hv, AutoFutex.posts_zero]
    rw [gt_iff_lt, ← gt_iff_lt, AutoFutex.posts_pos] at hz
    omega
  · exact ⟨tr, s, [], (List.append_nil _).symm, h, .init, taken tr s h hz, fun a e b e' _ => ⟨b, e'⟩⟩

theorem newest_of_informed {n : Nat} {tr : List Ev} {s : St} (h : Exec step (init n) tr s) {t : Nat} {th : Th} (ht : s.base.ths[t]? = some th) {p : Nat}
    (hp : s.pos[t]? = some p) (hi : Informed t th.view tr) : s.hist[p]? = some s.base.word.val := by
  have I := inv_exec h
  have O := I.own t th p ht hp
  have e : p + 1 = (values tr).length := by
    have := O.pos
    rcases last_change tr with h1 | ⟨a, u, w, b, e, h1⟩
    · omega
    · have : (values a).length ≤ p := by
        obtain ⟨u', w', hc, hk⟩ := hi a _ b e ⟨u, w, rfl⟩
        cases hc
        rcases hk with rfl | ⟨id, hw, hm⟩
        · exact O.mine a w b e
        · exact O.old a u w b e id hw hm
      omega
  have hl := I.last
  rw [List.getLast?_eq_getElem?, I.hist, ← e, Nat.add_sub_cancel, ← I.hist] at hl
  exact hl

/-- A post by a thread that knows of every change of the word changes it, unless the posts that are not taken yet outnumber the waiters now; -/
theorem C90_informed_post {n : Nat} (hn : n ≤ 1023) {tr es a b : List Ev} {s s' : St} (h : Exec step (init n) tr s) {t : Nat} {l : Act}
    (hs : step s (t, l) = some (s', es)) (hcall : tr = a ++ .ev (.called t .post) :: b) (hno : .ev (.posted t) ∉ b ++ es) (hret : .ev (.postDone t) ∈ es)
    {th : Th} (ht : s.base.ths[t]? = some th) (hi : Informed t th.view tr) :
    successes (plain tr) + s.base.ths.countP Th.blocked < postsMade (plain tr) := by
  obtain ⟨th', p, a', b', es', k1, k2, k3, k4, k5⟩ := base_of_ev hs hret
  rw [ht] at k1; cases k1
  rw [List.mem_append, not_or] at hno
  rcases post_returns ht k3 k4 (fun hm => hno.2 ((k5 _).mpr hm)) with hp | ⟨old, hpc, hw⟩
  · obtain ⟨c, d, e, hd⟩ := signalled h t th ht hp
    rw [hcall] at e
    rcases split_append e with ⟨b'', h1, h2⟩ | ⟨c', h1, h2⟩
    · exact absurd (by rw [h2]; simp) (hd .post)
    · cases c' with
      | nil => cases h2
      | cons x c' =>
        simp only [List.cons_append, List.cons.injEq] at h2
        exact absurd (by rw [h2.2]; simp) hno.1
  · have hv := (inv_exec h).copies t th p old ht k2 (by rw [hpc]; rfl)
    rw [newest_of_informed h ht k2 hi] at hv
    obtain ⟨I, B⟩ := base_exec (AutoFutex.sinv_init hn) h
    have e1 := I.waiters
    have e2 := B.posts
    have e3 : P (init n).base.word.val = 0 := AutoFutex.P_zero
    rw [Option.some.inj hv] at e1 e2
    rw [ge_iff_le, UInt32.le_iff_toNat_le, AutoFutex.posts_toNat, AutoFutex.waiters_toNat] at hw
    omega

/-- and a wait by such a thread fails only if all posts are taken now. -/
theorem C90_informed_wait {n : Nat} (hn : n ≤ 1023) {tr es : List Ev} {s s' : St} (h : Exec step (init n) tr s) {t : Nat} {l : Act}
    (hs : step s (t, l) = some (s', es)) (hret : .ev (.tryDone t false) ∈ es ∨ .ev (.timedDone t false) ∈ es) {th : Th} (ht : s.base.ths[t]? = some th)
    (hi : Informed t th.view tr) : postsMade (plain tr) = successes (plain tr) := by
  obtain ⟨e, he, hm⟩ : ∃ e, .ev e ∈ es ∧ (e = .tryDone t false ∨ e = .timedDone t false) := by
    rcases hret with h | h
    · exact ⟨_, h, .inl rfl⟩
    · exact ⟨_, h, .inr rfl⟩
  obtain ⟨th', p, a', b', es', k1, k2, k3, k4, _⟩ := base_of_ev hs he
  rw [ht] at k1; cases k1
  have hz : P s.base.word.val = 0 := by
    rcases fails ht k3 (by rcases hm with rfl | rfl; exact .inl k4; exact .inr k4) with ⟨k, old, hpc, hz⟩ | hz
    · have hv := (inv_exec h).copies t th p old ht k2 (by rw [hpc]; rfl)
      rw [newest_of_informed h ht k2 hi] at hv
      rw [Option.some.inj hv]
      rw [AutoFutex.posts_pos] at hz
      omega
    · exact AutoFutex.posts_zero.mp hz
  have e2 := (base_exec (AutoFutex.sinv_init hn) h).2.posts
  have e3 : P (init n).base.word.val = 0 := AutoFutex.P_zero
  omega

/-- Whatever values are loaded, successful waits never outnumber the posts. -/
theorem C90_at_most_one_per_post {n : Nat} (hn : n ≤ 1023) {tr : List Ev} {s : St} (h : Exec step (init n) tr s) :
    successes (plain tr) ≤ postsMade (plain tr) ∧ postsMade (plain tr) ≤ postCalls (plain tr) := by
  obtain ⟨I, B⟩ := base_exec (AutoFutex.sinv_init hn) h
  obtain ⟨h1, h2, _⟩ := B
  have e1 : (init n).base.ths.countP Th.prePost = 0 := by simp only [init, AutoFutex.init]; exact countP_replicate_false rfl n
  have e2 : P (init n).base.word.val = 0 := AutoFutex.P_zero
  omega

/-! ## The hypotheses are met -/

/-- Thread 0 posts and does something of which thread 1 learns; then thread 1 posts, and gives up; it knows of the change made by thread 0. -/
def demo : List (Nat × Act) :=
  [(0, .op (.call .post)), (0, .load 0), (0, .op .go), (0, .op .doWork), (1, .sync 0), (1, .op (.call .post)), (1, .load 1)]

def demoTr : List Ev := [.ev (.called 0 .post), .changed 0 0x400000, .ev (.posted 0), .ev (.postDone 0), .ev (.work 0 0), .ev (.called 1 .post)]

theorem informed_one {t : Nat} {k : View} {tr a₀ b₀ : List Ev} {u : Nat} {w : UInt32} (h : tr = a₀ ++ .changed u w :: b₀) (ha : ∀ u w, Ev.changed u w ∉ a₀)
    (hb : ∀ u w, Ev.changed u w ∉ b₀) (hk : Knows t k (.changed u w) b₀) : Informed t k tr := by
  rintro a e b he ⟨u', w', rfl⟩
  rw [h] at he
  rcases split_append he with ⟨b', h1, _⟩ | ⟨c, h1, h2⟩
  · exact absurd (by rw [h1]; simp) (ha u' w')
  · cases c with
    | nil =>
      simp only [List.nil_append, List.cons.injEq] at h2
      rw [← h2.1, ← h2.2]; exact hk
    | cons x c =>
      simp only [List.cons_append, List.cons.injEq] at h2
      exact absurd (by rw [h2.2]; simp) (hb u' w')

example : ∃ tr s s' th, Exec step (init 2) tr s ∧ tr = demoTr ∧ step s (1, .op .go) = some (s', [.ev (.postDone 1)]) ∧
    tr = demoTr.take 5 ++ .ev (.called 1 .post) :: [] ∧ s.base.ths[1]? = some th ∧ Informed 1 th.view tr :=
  ⟨_, _, _, _, exec_of_run (ls := demo) rfl, rfl, rfl, rfl, rfl,
    informed_one (a₀ := demoTr.take 1) (b₀ := demoTr.drop 2) rfl (by simp [demoTr]) (by simp [demoTr]) ⟨0, _, rfl, .inr ⟨0, by decide, by decide⟩⟩⟩

/-- Having learned of the post, thread 1 cannot load the value from before it. -/
example : runFrom step (init 2) (demo.take 6 ++ [(1, .load 0)]) = none := rfl

/-- Thread 0 posts, and thread 1 takes the post with `try_wait`; its next `try_wait` fails. -/
example : ∃ tr s s' th, Exec step (init 2) tr s ∧ s.base.ths[1]? = some th ∧ step s (1, .op .go) = some (s', [.ev (.tryDone 1 false)]) ∧
    postsMade (plain tr) = 1 ∧ successes (plain tr) = 1 :=
  ⟨_, _, _, _, exec_of_run (ls := [(0, .op (.call .post)), (0, .load 0), (0, .op .go), (1, .op (.call .tryWait)), (1, .load 1), (1, .op .go), (1, .op (.call .tryWait)),
    (1, .load 2)]) rfl, rfl, rfl, rfl, rfl⟩

/-- A timed wait goes to sleep, times out, and reports failure. -/
example : ∃ tr s s' th, Exec step (init 1) tr s ∧ s.base.ths[0]? = some th ∧ step s (0, .op .go) = some (s', [.changed 0 0, .ev (.timedDone 0 false)]) ∧ Informed 0 th.view tr :=
  ⟨_, _, _, _, exec_of_run (ls := [(0, .op (.call .timedWait)), (0, .load 0), (0, .op .go), (0, .op .go), (0, .op .go), (0, .op .go), (0, .op .timeout), (0, .load 1)]) rfl,
    rfl, rfl, informed_one (a₀ := [.ev (.called 0 .timedWait)]) (b₀ := []) rfl (by simp) (by simp) ⟨0, _, rfl, .inl rfl⟩⟩

end Verif.AutoFutexOrder
