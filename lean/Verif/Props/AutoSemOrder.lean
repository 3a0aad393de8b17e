import Verif.Proof.AutoSemOrder

/-!
# C89: memory order of the auto_reset_event on top of a semaphore

A wait that succeeds knows what was done before every post made before it; and a post made while a thread is blocked wakes it.  Neither holds for posts that find the
event set: they publish nothing, and what they find may be out of date.
-/

namespace Verif.AutoSemOrder

open Verif.Atomic (Kind Op One successes signalsCalled)
open AutoSem (PC)

/-- **C89**, refuted: thread 1 does something and posts; the post returns, and then thread 2 calls `wait`, which succeeds.  Thread 2 does not know what thread 1 has
done. -/
theorem C89_refuted : ∃ tr s, Exec step (init 3) tr s ∧
    tr = [.ev (.called 0 (.sig .post)), .signalled 0 (-1), .posted 0, .ev (.ret 0 (.sig .post) true),
      .work 1 0, .ev (.called 1 (.sig .post)), .dropped 1, .ev (.ret 1 (.sig .post) true),
      .ev (.called 2 (.acq .wait)), .joined 2 0, .took 2, .ev (.ret 2 (.acq .wait) true)] ∧
    ∃ v, s.views[2]? = some v ∧ 0 ∉ v.ids :=
  ⟨_, _, exec_of_run (ls := [(0, .op (.call (.sig .post))), (0, .load 0), (0, .op .go), (0, .op .go), (0, .op .go),
    (1, .work), (1, .op (.call (.sig .post))), (1, .load 1), (1, .op .go),
    (2, .op (.call (.acq .wait))), (2, .op .go), (2, .op .go), (2, .op .go)]) rfl, rfl, _, rfl, by decide⟩

/-- A thread can do nothing but begin a call, or other than that what the users' code does. -/
def Stuck (s : St) : Prop := ∀ t a, (a = .op .go ∨ ∃ i, a = .load i) → step s (t, a) = none

/-- **C89**, refuted: thread 2 is blocked in its second `wait`, all the posts so far are used up, and thread 1 posts.  The post returns; thread 2 stays blocked, there is no
permit, and no other thread is in a call. -/
theorem C89_lost_refuted : ∃ tr s, Exec step (init 3) tr s ∧
    tr = [.ev (.called 0 (.sig .post)), .signalled 0 (-1), .posted 0, .ev (.ret 0 (.sig .post) true),
      .ev (.called 2 (.acq .wait)), .joined 2 0, .took 2, .ev (.ret 2 (.acq .wait) true),
      .ev (.called 2 (.acq .wait)), .joined 2 1,
      .ev (.called 1 (.sig .post)), .dropped 1, .ev (.ret 1 (.sig .post) true)] ∧
    s.base.ths = [.idle, .idle, .wSem .wait] ∧ s.base.sem = 0 ∧ Stuck s := by
  refine ⟨_, _, exec_of_run (ls := [(0, .op (.call (.sig .post))), (0, .load 0), (0, .op .go), (0, .op .go), (0, .op .go),
    (2, .op (.call (.acq .wait))), (2, .op .go), (2, .op .go), (2, .op .go), (2, .op (.call (.acq .wait))), (2, .op .go),
    (1, .op (.call (.sig .post))), (1, .load 1), (1, .op .go)]) rfl, rfl, rfl, rfl, ?_⟩
  intro t a ha
  rcases ha with rfl | ⟨i, rfl⟩
  · match t with
    | 0 => rfl
    | 1 => rfl
    | 2 => rfl
    | t + 3 => rfl
  · match t with
    | 0 => match i with
      | 0 | 1 | 2 | 3 => rfl
      | i + 4 => rfl
    | 1 => match i with
      | 0 | 1 | 2 | 3 => rfl
      | i + 4 => rfl
    | 2 => match i with
      | 0 | 1 | 2 | 3 => rfl
      | i + 4 => rfl
    | t + 3 => rfl

/-- A post returns only after it has made a permit or given up; a wait succeeds only after it has taken a permit. -/
theorem C89_ends {n : Nat} {tr a b : List Ev} {s : St} (h : Exec step (init n) tr s) {t : Nat} {op : Op One} {r : Bool}
    (e : tr = a ++ .ev (.ret t op r) :: b) : (∃ k, op = .acq k ∧ r = false) ∨ Caused t op r a := ret_exec h e

/-- A wait that has taken a permit knows what was done before every post that had made a permit by then. -/
theorem C89_effective_partial {n : Nat} {tr a b : List Ev} {s : St} (h : Exec step (init n) tr s) {t : Nat} (e : tr = a ++ .took t :: b) {v : V}
    (hv : s.views[t]? = some v) {id : Nat} (hp : Published relPost workOf a id) : id ∈ v.ids :=
  ((inv_exec h).view t v hv).2.took a b e id hp

/-- A wait that has counted itself knows what was done before every post that had changed the state by then, whether it succeeds or not. -/
theorem C89_counted_partial {n : Nat} {tr a b : List Ev} {s : St} (h : Exec step (init n) tr s) {t : Nat} {x : Int} (e : tr = a ++ .joined t x :: b) {v : V}
    (hv : s.views[t]? = some v) {id : Nat} (hp : Published relSignal workOf a id) : id ∈ v.ids :=
  ((inv_exec h).view t v hv).2.joined a b x e id hp

/-- A post gives up only if the permits that existed or were about to be made outnumbered the waiters at an instant that is not before any change of the state which the
thread knows of. -/
theorem C89_dropped_partial {n : Nat} {tr es : List Ev} {s s' : St} (h : Exec step (init n) tr s) {t : Nat} {a : Act} (hs : step s (t, a) = some (s', es))
    (hd : .dropped t ∈ es) {v : V} (hv : s.views[t]? = some v) :
    ∃ tr₁ s₁ tr₂, tr = tr₁ ++ tr₂ ∧ Exec step (init n) tr₁ s₁ ∧ Exec step s₁ tr₂ s ∧
      s₁.base.ths.countP PC.registered < s₁.base.sem + s₁.base.ths.countP PC.posting ∧
      ∀ a e b, tr = a ++ e :: b → Knows t v.ids e b → ∃ m, tr₁ = a ++ e :: m := by
  obtain ⟨v', hv', d⟩ := delta_step hs
  rw [hv] at hv'; cases hv'
  obtain ⟨g1, g2⟩ := (inv_exec h).view t v hv
  cases d with
  | load b i x hx hi =>
    have hneg : x < 0 := by
      split at hd
      · assumption
      · cases hd
    obtain ⟨tr₁, s₁, tr₂, e, h1, h2, h3, h4⟩ := instant h hx
    refine ⟨tr₁, s₁, tr₂, e, h1, h2, ?_, ?_⟩
    · have := (base_exec h1).1.state
      omega
    · rintro a ev c hev ⟨u, y, hc, hk⟩
      have hpos : (values a).length ≤ v.pos := by
        rcases hk with rfl | ⟨id, hw, hm⟩
        · exact g2.mine a ev c y hev hc
        · exact g1.old a ev c hev u y id hc hw hm
      have hlt : (values a).length < (values tr₁).length := by omega
      rw [e] at hev
      rcases List.append_eq_append_iff.mp hev with ⟨c', k1, k2⟩ | ⟨c', k1, k2⟩
      · rw [k1] at hlt
        have := values_le tr₁ c'
        omega
      · cases c' with
        | nil => rw [k1, List.append_nil] at hlt; omega
        | cons z c' =>
          simp only [List.cons_append, List.cons.injEq] at k2
          obtain ⟨rfl, _⟩ := k2
          exact ⟨c', k1⟩
  | quiet b es he => obtain ⟨e', h⟩ := he _ hd; cases h
  | _ => simp at hd

/-- A post that loads the newest value and finds the event set: permits outnumber the waiters now. -/
theorem C89_newest {n : Nat} {tr : List Ev} {s s' : St} (h : Exec step (init n) tr s) {t : Nat} {i : Nat} (hi : i + 1 = s.hist.length)
    (hs : step s (t, .load i) = some (s', [.dropped t])) :
    s.base.ths.countP PC.registered < s.base.sem + s.base.ths.countP PC.posting := by
  have hl := last_exec h
  have hx : ∃ x, s.hist[i]? = some x ∧ x < 0 := by
    unfold step at hs
    simp only at hs
    split at hs
    · split at hs
      · cases hs
      · next x hx =>
        split at hs
        · refine ⟨x, hx, ?_⟩
          simp only [Option.some.injEq, Prod.mk.injEq] at hs
          have := hs.2
          split at this
          · assumption
          · cases this
        · cases hs
    · cases hs
  obtain ⟨x, hx, hneg⟩ := hx
  rw [List.getLast?_eq_getElem?, ← hi, Nat.add_sub_cancel, hx] at hl
  cases hl
  have := (base_exec h).1.state
  omega

/-- Whatever values are loaded, successful waits never outnumber the posts, -/
theorem C89_at_most_one_per_post {n : Nat} {tr : List Ev} {s : St} (h : Exec step (init n) tr s) : successes (plain tr) ≤ signalsCalled (plain tr) := by
  have := (base_exec h).1.count
  have h0 : (AutoSem.init n).sem = 0 := rfl
  have h1 : (AutoSem.init n).ths.countP PC.won = 0 := countP_replicate_false rfl n
  have h2 : (AutoSem.init n).ths.countP PC.posts = 0 := countP_replicate_false rfl n
  omega

/-- and, whenever no call is in progress, no more waits can succeed before the next post than one and one for each that has failed or thrown. -/
theorem C89_remembers_partial {n : Nat} {tr₁ tr₂ : List Ev} {s₁ s₂ : St} (h₁ : Exec step (init n) tr₁ s₁)
    (hidle : ∀ (t : Nat) pc, s₁.base.ths[t]? = some pc → pc = .idle) (h₂ : Exec step s₁ tr₂ s₂) (hnopost : signalsCalled (plain tr₂) = 0) :
    successes (plain tr₂) ≤ 1 + AutoSem.failures (plain tr₁) + AutoSem.thrown (plain tr₁) := by
  have hz : ∀ (p : PC → Bool), p .idle = false → s₁.base.ths.countP p = 0 := by
    intro p hp
    apply countP_eq_zero_of_forall
    intro t pc hpc
    rw [hidle t pc hpc]
    exact hp
  obtain ⟨I, e2⟩ := base_exec h₁
  have e1 := I.state
  have e3 := (base_from I rfl h₂).count
  simp only [AutoSem.Low, hz _ (rfl : PC.registered .idle = false), hz _ (rfl : PC.posting .idle = false),
    hz _ (rfl : PC.lost .idle = false), hz _ (rfl : PC.won .idle = false), hz _ (rfl : PC.posts .idle = false)] at e1 e2 e3
  omega

/-! ## The hypotheses are met -/

/-- Thread 1 does something and posts; thread 2 waits. -/
def demo : List (Nat × Act) :=
  [(1, .work), (1, .op (.call (.sig .post))), (1, .load 0), (1, .op .go), (1, .op .go), (1, .op .go),
   (2, .op (.call (.acq .timed))), (2, .op .go), (2, .op .go), (2, .op .go)]

def demoTr : List Ev := [.work 1 0, .ev (.called 1 (.sig .post)), .signalled 1 (-1), .posted 1, .ev (.ret 1 (.sig .post) true), .ev (.called 2 (.acq .timed)),
  .joined 2 0, .took 2, .ev (.ret 2 (.acq .timed) true)]

example : ∃ tr s v, Exec step (init 3) tr s ∧ tr = demoTr ∧ demoTr = demoTr.take 7 ++ .took 2 :: demoTr.drop 8 ∧ Published relPost workOf (demoTr.take 7) 0 ∧
    demoTr = demoTr.take 6 ++ .joined 2 0 :: demoTr.drop 7 ∧ Published relSignal workOf (demoTr.take 6) 0 ∧
    demoTr = demoTr.take 8 ++ .ev (.ret 2 (.acq .timed) true) :: demoTr.drop 9 ∧ s.views[2]? = some v ∧ v.ids = [0, 0] :=
  ⟨_, _, _, exec_of_run (ls := demo) rfl, rfl, rfl, ⟨demoTr.take 3, _, _, 1, _, rfl, rfl, List.mem_cons_self .., rfl⟩, rfl,
    ⟨demoTr.take 2, _, _, 1, _, rfl, rfl, List.mem_cons_self .., rfl⟩, rfl, rfl, rfl⟩

/-- Thread 0 posts and does something of which thread 1 learns; then thread 1 posts, and gives up; it knows of the change made by thread 0. -/
def demo2 : List (Nat × Act) :=
  [(0, .op (.call (.sig .post))), (0, .load 0), (0, .op .go), (0, .op .go), (0, .op .go), (0, .work), (1, .sync 0), (1, .op (.call (.sig .post)))]

def demo2Tr : List Ev := [.ev (.called 0 (.sig .post)), .signalled 0 (-1), .posted 0, .ev (.ret 0 (.sig .post) true), .work 0 0, .ev (.called 1 (.sig .post))]

example : ∃ tr s s' v, Exec step (init 2) tr s ∧ tr = demo2Tr ∧ step s (1, .load 1) = some (s', [.dropped 1]) ∧ 1 + 1 = s.hist.length ∧ s.views[1]? = some v ∧
    demo2Tr = demo2Tr.take 1 ++ .signalled 0 (-1) :: demo2Tr.drop 2 ∧ Knows 1 v.ids (.signalled 0 (-1)) (demo2Tr.drop 2) ∧
    step s (1, .load 0) = none :=
  ⟨_, _, _, _, exec_of_run (ls := demo2) rfl, rfl, rfl, rfl, rfl, rfl, ⟨0, -1, rfl, .inr ⟨0, by decide, by decide⟩⟩, rfl⟩

/-- Two posts, the second of which gives up; no call is in progress, and one wait succeeds. -/
example : ∃ tr₁ tr₂ s₁ s₂, Exec step (init 2) tr₁ s₁ ∧ s₁.base.ths = [.idle, .idle] ∧ Exec step s₁ tr₂ s₂ ∧ signalsCalled (plain tr₁) = 2 ∧
    signalsCalled (plain tr₂) = 0 ∧ successes (plain tr₂) = 1 :=
  ⟨_, _, _, _, exec_of_run (ls := demo2 ++ [(1, .load 1), (1, .op .go)]) rfl, rfl,
    exec_of_run (ls := [(0, .op (.call (.acq .wait))), (0, .op .go), (0, .op .go), (0, .op .go)]) rfl, rfl, rfl, rfl⟩

end Verif.AutoSemOrder
