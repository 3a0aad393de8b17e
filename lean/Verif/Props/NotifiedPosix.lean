import Verif.Proof.NotifiedPosix

/-! C115: notified waits of condition_variable for pthreads come back. -/

namespace Verif.CondVarPosix

open Verif.Spec.Endless

variable {D : Type}

/-- **C115** (`condition_variable` for pthreads).  A wait that a notification wakes returns; a wait with a predicate does if the predicate holds from then on (or the
predicate throws).  This is so in every execution without end in which no thread that can take its next step again and again is passed over for ever and the mutex is free
again and again. -/
theorem C115_woken_returns (bug : Bool) (n : Nat) (d₀ : D) (st : Nat → St D) (lbl : Nat → Nat × Act D) (ev : Nat → List (Ev D))
    (h : Endless (step bug) (init n d₀) st lbl ev) (hs : Served (step bug) Next st lbl) (hf : Often fun j => (st j).owner = none) (t u i : Nat) (all : Bool)
    (ws : List Nat) (tr : List (Ev D)) (c : Call D) (hx : Exec (step bug) (init n d₀) tr (st i)) (hi : .notified t all ws ∈ ev i) (hu : u ∈ ws)
    (hc : callOf tr u = some c) (hp : ∀ p, c.pred = some p → ∀ j, i < j → p (st j).data = true) :
    ∃ j, i < j ∧ (.ret u true ∈ ev j ∨ (c.pred ≠ none ∧ .threw u ∈ ev j)) := by
  have key : ∀ (k : Kind) (p : Option (D → Bool)), (st i).ths[u]? = some (.asleep k p) → (st (i + 1)).ths[u]? = some (.wake k p .ok) →
      ∃ j, i < j ∧ (.ret u true ∈ ev j ∨ (c.pred ≠ none ∧ .threw u ∈ ev j)) := fun k p ha hw => by
    obtain ⟨e, w, he⟩ := ((inv_exec hx).good u _ ha).call
    rw [hc] at he; cases he
    obtain ⟨j, hj, hr⟩ := ok_ends h hs hf hw fun p e j hj => hp p e j (by omega)
    exact ⟨j, by omega, hr⟩
  rcases step_notified (h.next i) hi with ⟨_, e, rfl⟩ | ⟨_, rfl⟩ | ⟨v, k, p, _, rfl, hv, e⟩
  · obtain ⟨k, p, ha⟩ := mem_sleepers.mp hu
    exact key k p ha (by rw [e, List.getElem?_map, ha]; rfl)
  · cases hu
  · cases List.mem_singleton.mp hu
    exact key k p hv (by rw [e]; exact get_set_self hv)

/-- **C115** (`condition_variable` for pthreads), for waits without a clock of the user, on platforms that do not repeat interrupted waits.  `notify_all` makes return: every wait
without a predicate that has released the mutex, and every wait whose predicate holds from then on (or throws).  This is so in every execution without end in which no thread
that can take its next step again and again is passed over for ever and the mutex is free again and again.
Missing: waits with a clock of the user and platforms with interrupted waits; for these it is false, see the next two theorems. -/
theorem C115_notify_all_partial (n : Nat) (d₀ : D) (st : Nat → St D) (lbl : Nat → Nat × Act D) (ev : Nat → List (Ev D))
    (h : Endless (step false) (init n d₀) st lbl ev) (hs : Served (step false) Next st lbl) (hf : Often fun j => (st j).owner = none) (t u i : Nat)
    (ws : List Nat) (tr : List (Ev D)) (c : Call D) (hx : Exec (step false) (init n d₀) tr (st i)) (hi : .notified t true ws ∈ ev i)
    (hu : u < n) (hc : callOf tr u = some c) (hk : c.kind ≠ .clocked) (hn : c.pred = none → ownerOf tr ≠ some u)
    (hp : ∀ p, c.pred = some p → ∀ j, i ≤ j → p (st j).data = true) :
    ∃ j, i < j ∧ ((∃ b, .ret u b ∈ ev j ∧ (c.pred ≠ none → b = true)) ∨ (c.pred ≠ none ∧ .threw u ∈ ev j)) := by
  have I := inv_exec hx
  have F := fresh_exec hx
  obtain ⟨e, hlt⟩ : (st (i + 1)).ths = (st i).ths.map PC.wakeUp ∧ (∃ pc, (st i).ths[u]? = some pc) := by
    rcases step_notified (h.next i) hi with ⟨_, e, _⟩ | ⟨hb, _⟩ | ⟨_, _, _, hb, _⟩
    · refine ⟨by rw [e], ?_⟩
      exact ⟨_, List.getElem?_eq_getElem (by rw [length_exec hx]; exact hu)⟩
    · cases hb
    · cases hb
  obtain ⟨pc, hpc⟩ := hlt
  have hm := (I.good u pc hpc).call
  have hf1 := F u pc hpc
  have hown : ∀ hh : pc.holds = true, c.pred ≠ none := fun hh h0 => hn h0 (by rw [I.owner]; exact (I.good u pc hpc).holds hh)
  have nxt : (st (i + 1)).ths[u]? = some pc.wakeUp := by rw [e, List.getElem?_map, hpc]; rfl
  rw [hc] at hm
  cases pc with
  | idle => cases hm
  | test k p =>
    obtain ⟨_, _, he⟩ := hm; cases he
    obtain ⟨j, hj, hr⟩ := test_ends h hs nxt fun j hj => hp p rfl j (by omega)
    exact ⟨j, by omega, hr.imp (fun h => ⟨true, h, fun _ => rfl⟩) fun h => ⟨nofun, h⟩⟩
  | clock p => obtain ⟨_, _, he⟩ := hm; cases he; exact absurd rfl hk
  | block k p =>
    obtain ⟨_, _, he⟩ := hm; cases he
    cases p with
    | none => exact absurd rfl (hown rfl)
    | some p =>
      have := hf1 hk
      rw [hp p rfl i (Nat.le_refl _)] at this; cases this
  | asleep k p =>
    obtain ⟨_, _, he⟩ := hm; cases he
    obtain ⟨j, hj, hr⟩ := ok_ends h hs hf nxt fun p e j hj => hp p e j (by omega)
    exact ⟨j, by omega, hr.imp (fun h => ⟨true, h, fun _ => rfl⟩) id⟩
  | wake k p r =>
    cases r with
    | ok =>
      obtain ⟨_, he⟩ := hm; cases he
      obtain ⟨j, hj, hr⟩ := ok_ends h hs hf nxt fun p e j hj => hp p e j (by omega)
      exact ⟨j, by omega, hr.imp (fun h => ⟨true, h, fun _ => rfl⟩) id⟩
    | timeout =>
      obtain ⟨_, _, _, he⟩ := hm; cases he
      obtain ⟨j, hj, hr⟩ := timeout_ends h hs hf hk nxt fun p e j hj => hp p e j (by omega)
      exact ⟨j, by omega, hr⟩
    | interrupted => exact hf1.elim
  | last p =>
    obtain ⟨_, _, _, he⟩ := hm; cases he
    obtain ⟨j, hj, hr⟩ := last_ends h hs nxt fun j hj => hp p rfl j (by omega)
    exact ⟨j, by omega, hr.imp (fun h => ⟨true, h, fun _ => rfl⟩) fun h => ⟨nofun, h⟩⟩

/-- The predicate of the examples. -/
def isOne (d : Nat) : Bool := d == 1

/-- **C115** is false for waits until a time point of a clock of the user: the predicate holds all the time and `notify_all` is called again and again, and each time the wait
has been woken by the system to look at that clock; the clock stands still, so it goes to sleep again without a look at the predicate. -/
theorem C115_notify_all_refuted_user_clock : ∃ tr st lbl ev, Exec (step false) (init 2 0) tr (st 0) ∧
    (∃ c, callOf tr 0 = some c ∧ c.pred = some isOne) ∧ Endless (step false) (init 2 0) st lbl ev ∧ Served (step false) Next st lbl ∧
    (∀ j, isOne (st j).data = true) ∧ (Often fun j => (st j).owner = none) ∧ (Often fun j => ∃ ws, .notified 1 true ws ∈ ev j) ∧
    ∀ j, (∀ b, .ret 0 b ∉ ev j) ∧ .threw 0 ∉ ev j := by
  have hrun := exec_of_run (step := step false) (s := init 2 0) (r := (_, _)) (ls := [(0, .lock), (0, .wait .clocked (some isOne)), (0, .go), (0, .early), (0, .go), (0, .timeout),
    (1, .lock), (1, .update 1), (1, .unlock)]) rfl
  obtain ⟨st, lbl, ev, h, h0, hg, hR⟩ : ∃ st lbl ev, Endless (step false) (init 2 0) st lbl ev ∧ st 0 = ⟨none, 1, [.wake .clocked (some isOne) .timeout, .idle]⟩ ∧
      (∀ i, ((st i).ths.length = 2 ∧ (st i).data = 1 ∧ ((∃ ws, .notified 1 true ws ∈ ev i) → (st i).owner = none)) ∧ (∀ r, .ret 0 r ∉ ev i) ∧ .threw 0 ∉ ev i) ∧
      ∀ k : Bool, Often fun i => if k then (lbl i).1 = 1 ∧ ∃ ws, .notified 1 true ws ∈ ev i else (lbl i).1 = 0 := by
    refine endless_of_rounds (κ := Bool) (step := step false) (P := fun s => s = ⟨none, 1, [.wake .clocked (some isOne) .timeout, .idle]⟩)
      (good := fun s _ es => (s.ths.length = 2 ∧ s.data = 1 ∧ ((∃ ws, .notified 1 true ws ∈ es) → s.owner = none)) ∧ (∀ r, .ret 0 r ∉ es) ∧ .threw 0 ∉ es)
      (R := fun k l es => if k then l.1 = 1 ∧ ∃ ws, .notified 1 true ws ∈ es else l.1 = 0) true ?_ (s₀ := init 2 0) ⟨_, hrun⟩ rfl
    rintro s rfl
    refine ⟨[((1, .notifyAll), [.notified 1 true []]), ((0, .go), [.relocked 0]), ((0, .early), []), ((0, .go), [.slept 0]), ((0, .timeout), [])],
      ⟨none, 1, [.wake .clocked (some isOne) .timeout, .idle]⟩, ?_, rfl, fun b => by cases b <;> simp⟩
    exact ⟨⟨none, 1, [.wake .clocked (some isOne) .timeout, .idle]⟩, rfl, ⟨⟨rfl, rfl, fun _ => rfl⟩, by simp⟩,
      ⟨some 0, 1, [.clock (some isOne), .idle]⟩, rfl, ⟨⟨rfl, rfl, by simp⟩, by simp⟩,
      ⟨some 0, 1, [.block .clocked (some isOne), .idle]⟩, rfl, ⟨⟨rfl, rfl, by simp⟩, by simp⟩,
      ⟨none, 1, [.asleep .clocked (some isOne), .idle]⟩, rfl, ⟨⟨rfl, rfl, by simp⟩, by simp⟩,
      ⟨none, 1, [.wake .clocked (some isOne) .timeout, .idle]⟩, rfl, ⟨⟨rfl, rfl, by simp⟩, by simp⟩, rfl⟩
  refine ⟨_, st, lbl, ev, h0 ▸ hrun, ⟨_, rfl, rfl⟩, h, ?_, fun j => by rw [(hg j).1.2.1]; rfl, fun i => ?_, fun i => ?_, fun j => (hg j).2⟩
  · intro t hr i
    match t with
    | 0 => obtain ⟨j, hj, e⟩ := hR false i; exact ⟨j, hj, e⟩
    | 1 => obtain ⟨j, hj, e⟩ := hR true i; exact ⟨j, hj, e.1⟩
    | t + 2 =>
      obtain ⟨j, _, a, r, _, hst⟩ := hr 0
      have : (st j).ths[t + 2]? = none := List.getElem?_eq_none (by rw [(hg j).1.1]; omega)
      simp [step, this] at hst
  · obtain ⟨j, hj, e⟩ := hR true i; exact ⟨j, hj, (hg j).1.2.2 e.2⟩
  · obtain ⟨j, hj, e⟩ := hR true i; exact ⟨j, hj, e.2⟩

/-- **C115** is false where interrupted waits are repeated: each time `notify_all` is called the wait, which has no time limit, has been interrupted, and it goes to sleep again
without a look at the predicate, which holds all the time. -/
theorem C115_notify_all_refuted_interrupted : ∃ tr st lbl ev, Exec (step true) (init 2 0) tr (st 0) ∧
    (∃ c, callOf tr 0 = some c ∧ c.kind = .plain ∧ c.pred = some isOne) ∧ Endless (step true) (init 2 0) st lbl ev ∧ Served (step true) Next st lbl ∧
    (∀ j, isOne (st j).data = true) ∧ (Often fun j => (st j).owner = none) ∧ (Often fun j => ∃ ws, .notified 1 true ws ∈ ev j) ∧
    ∀ j, (∀ b, .ret 0 b ∉ ev j) ∧ .threw 0 ∉ ev j := by
  have hrun := exec_of_run (step := step true) (s := init 2 0) (r := (_, _)) (ls := [(0, .lock), (0, .wait .plain (some isOne)), (0, .go), (0, .go), (0, .interrupt),
    (1, .lock), (1, .update 1), (1, .unlock)]) rfl
  obtain ⟨st, lbl, ev, h, h0, hg, hR⟩ : ∃ st lbl ev, Endless (step true) (init 2 0) st lbl ev ∧ st 0 = ⟨none, 1, [.wake .plain (some isOne) .interrupted, .idle]⟩ ∧
      (∀ i, ((st i).ths.length = 2 ∧ (st i).data = 1 ∧ ((∃ ws, .notified 1 true ws ∈ ev i) → (st i).owner = none)) ∧ (∀ r, .ret 0 r ∉ ev i) ∧ .threw 0 ∉ ev i) ∧
      ∀ k : Bool, Often fun i => if k then (lbl i).1 = 1 ∧ ∃ ws, .notified 1 true ws ∈ ev i else (lbl i).1 = 0 := by
    refine endless_of_rounds (κ := Bool) (step := step true) (P := fun s => s = ⟨none, 1, [.wake .plain (some isOne) .interrupted, .idle]⟩)
      (good := fun s _ es => (s.ths.length = 2 ∧ s.data = 1 ∧ ((∃ ws, .notified 1 true ws ∈ es) → s.owner = none)) ∧ (∀ r, .ret 0 r ∉ es) ∧ .threw 0 ∉ es)
      (R := fun k l es => if k then l.1 = 1 ∧ ∃ ws, .notified 1 true ws ∈ es else l.1 = 0) true ?_ (s₀ := init 2 0) ⟨_, hrun⟩ rfl
    rintro s rfl
    refine ⟨[((1, .notifyAll), [.notified 1 true []]), ((0, .go), [.relocked 0]), ((0, .go), [.slept 0]), ((0, .interrupt), [.interrupted 0])],
      ⟨none, 1, [.wake .plain (some isOne) .interrupted, .idle]⟩, ?_, rfl, fun b => by cases b <;> simp⟩
    exact ⟨⟨none, 1, [.wake .plain (some isOne) .interrupted, .idle]⟩, rfl, ⟨⟨rfl, rfl, fun _ => rfl⟩, by simp⟩,
      ⟨some 0, 1, [.block .plain (some isOne), .idle]⟩, rfl, ⟨⟨rfl, rfl, by simp⟩, by simp⟩,
      ⟨none, 1, [.asleep .plain (some isOne), .idle]⟩, rfl, ⟨⟨rfl, rfl, by simp⟩, by simp⟩,
      ⟨none, 1, [.wake .plain (some isOne) .interrupted, .idle]⟩, rfl, ⟨⟨rfl, rfl, by simp⟩, by simp⟩, rfl⟩
  refine ⟨_, st, lbl, ev, h0 ▸ hrun, ⟨_, rfl, rfl, rfl⟩, h, ?_, fun j => by rw [(hg j).1.2.1]; rfl, fun i => ?_, fun i => ?_, fun j => (hg j).2⟩
  · intro t hr i
    match t with
    | 0 => obtain ⟨j, hj, e⟩ := hR false i; exact ⟨j, hj, e⟩
    | 1 => obtain ⟨j, hj, e⟩ := hR true i; exact ⟨j, hj, e.1⟩
    | t + 2 =>
      obtain ⟨j, _, a, r, _, hst⟩ := hr 0
      have : (st j).ths[t + 2]? = none := List.getElem?_eq_none (by rw [(hg j).1.1]; omega)
      simp [step, this] at hst
  · obtain ⟨j, hj, e⟩ := hR true i; exact ⟨j, hj, (hg j).1.2.2 e.2⟩
  · obtain ⟨j, hj, e⟩ := hR true i; exact ⟨j, hj, e.2⟩

/-- The hypotheses of the first two theorems can be met: a thread sleeps in a wait with a predicate that holds by now, and is about to be notified; afterwards the same is repeated
for ever. -/
example : ∃ tr st lbl ev, Exec (step false) (init 2 0) tr (st 0) ∧ (∃ c, callOf tr 0 = some c ∧ c.kind = .system ∧ c.pred = some isOne) ∧
    Endless (step false) (init 2 0) st lbl ev ∧ Served (step false) Next st lbl ∧ (∀ j, isOne (st j).data = true) ∧
    (Often fun j => (st j).owner = none) ∧ .notified 1 true [0] ∈ ev 0 := by
  have hrun := exec_of_run (step := step false) (s := init 2 0) (r := (_, _)) (ls := [(0, .lock), (0, .wait .system (some isOne)), (0, .go), (0, .go),
    (1, .lock), (1, .update 1), (1, .unlock)]) rfl
  obtain ⟨st, lbl, ev, h, h0, hg, hR⟩ : ∃ st lbl ev, Endless (step false) (init 2 0) st lbl ev ∧ st 0 = ⟨none, 1, [.asleep .system (some isOne), .idle]⟩ ∧
      (∀ i, ((st i).ths.length = 2 ∧ (st i).data = 1 ∧ ((∃ ws, .notified 1 true ws ∈ ev i) → (st i).owner = none)) ∧
        ((st i).ths[0]? = some (.asleep .system (some isOne)) → .notified 1 true [0] ∈ ev i)) ∧
      ∀ k : Bool, Often fun i => if k then (lbl i).1 = 1 ∧ ∃ ws, .notified 1 true ws ∈ ev i else (lbl i).1 = 0 := by
    refine endless_of_rounds (κ := Bool) (step := step false) (P := fun s => s = ⟨none, 1, [.asleep .system (some isOne), .idle]⟩ ∨ s = ⟨none, 1, [.idle, .idle]⟩)
      (good := fun s _ es => (s.ths.length = 2 ∧ s.data = 1 ∧ ((∃ ws, .notified 1 true ws ∈ es) → s.owner = none)) ∧
        (s.ths[0]? = some (.asleep .system (some isOne)) → .notified 1 true [0] ∈ es))
      (R := fun k l es => if k then l.1 = 1 ∧ ∃ ws, .notified 1 true ws ∈ es else l.1 = 0) true ?_ (s₀ := init 2 0) ⟨_, hrun⟩ (.inl rfl)
    rintro s (rfl | rfl)
    · refine ⟨[((1, .notifyAll), [.notified 1 true [0]]), ((0, .go), [.relocked 0]), ((0, .go), [.ret 0 true]), ((0, .unlock), [.unlocked 0])],
        ⟨none, 1, [.idle, .idle]⟩, ?_, .inr rfl, fun b => by cases b <;> simp⟩
      exact ⟨⟨none, 1, [.wake .system (some isOne) .ok, .idle]⟩, rfl, ⟨⟨rfl, rfl, fun _ => rfl⟩, fun _ => by simp⟩,
        ⟨some 0, 1, [.test .system isOne, .idle]⟩, rfl, ⟨⟨rfl, rfl, by simp⟩, by simp⟩,
        ⟨some 0, 1, [.idle, .idle]⟩, rfl, ⟨⟨rfl, rfl, by simp⟩, by simp⟩,
        ⟨none, 1, [.idle, .idle]⟩, rfl, ⟨⟨rfl, rfl, by simp⟩, by simp⟩, rfl⟩
    · refine ⟨[((1, .notifyAll), [.notified 1 true []]), ((0, .lock), [.locked 0]), ((0, .unlock), [.unlocked 0])],
        ⟨none, 1, [.idle, .idle]⟩, ?_, .inr rfl, fun b => by cases b <;> simp⟩
      exact ⟨⟨none, 1, [.idle, .idle]⟩, rfl, ⟨⟨rfl, rfl, fun _ => rfl⟩, by simp⟩,
        ⟨some 0, 1, [.idle, .idle]⟩, rfl, ⟨⟨rfl, rfl, by simp⟩, by simp⟩,
        ⟨none, 1, [.idle, .idle]⟩, rfl, ⟨⟨rfl, rfl, by simp⟩, by simp⟩, rfl⟩
  refine ⟨_, st, lbl, ev, h0 ▸ hrun, ⟨_, rfl, rfl, rfl⟩, h, ?_, fun j => by rw [(hg j).1.2.1]; rfl, fun i => ?_, (hg 0).2 (by rw [h0]; rfl)⟩
  · intro t hr i
    match t with
    | 0 => obtain ⟨j, hj, e⟩ := hR false i; exact ⟨j, hj, e⟩
    | 1 => obtain ⟨j, hj, e⟩ := hR true i; exact ⟨j, hj, e.1⟩
    | t + 2 =>
      obtain ⟨j, _, a, r, _, hst⟩ := hr 0
      have : (st j).ths[t + 2]? = none := List.getElem?_eq_none (by rw [(hg j).1.1]; omega)
      simp [step, this] at hst
  · obtain ⟨j, hj, e⟩ := hR true i; exact ⟨j, hj, (hg j).1.2.2 e.2⟩

end Verif.CondVarPosix
