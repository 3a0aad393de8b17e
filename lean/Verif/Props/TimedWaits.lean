import Verif.Proof.TimedWaits
import Verif.Spec.TimedEnds

/-! C118: calls of events, semaphores and mutexes with a time limit come to an end. -/

open Verif.Spec.Endless

namespace Verif.Monitor

open Verif.Atomic (Kind Op Ev One)

variable {D S : Type}

/-- Thread `t` sleeps in a call with a time limit. -/
def SleepsTimed (s : St D S) (t : Nat) : Prop := s.ths[t]? = some (.asleep .timed)

/-- **C118** (the emulations of `auto_reset_event`, `manual_reset_event`, `semaphore`, and `timed_mutex` without `pthread_mutex_timedlock`, with and without interrupted
waits and clocks of the user): a wait or lock with a time limit returns or throws, whether or not the object becomes ready, and even if others are faster again and again, in
every execution without end in which no thread that can take its next step again and again is passed over for ever and time passes. -/
theorem C118_timed_wait (M : Mon D S) (n : Nat) (st : Nat → St D S) (lbl : Nat → Nat × Act S) (ev : Nat → List (Ev S))
    (h : Endless (step M) (init M n) st lbl ev) (hs : Served (step M) Next st lbl) (htime : Timely SleepsTimed TimedEnds .timeout st lbl ev) (t i : Nat)
    (hi : .called t (.acq .timed) ∈ ev i) : ∃ j, i < j ∧ TimedEnds t (ev j) := by
  have h0 : ∃ pc, (st (i + 1)).ths[t]? = some pc ∧ pc.timed = true := by
    have hst := h.next i
    generalize lbl i = l at hst
    obtain ⟨u, a⟩ := l
    revert hst hi; generalize st (i + 1) = s', ev i = es; intro hi hst
    unfold step at hst
    simp only at hst
    split at hst
    · cases hst
    next pc ht =>
    split at hst <;> (repeat' split at hst) <;> (try contradiction) <;> cases hst <;> (try split at hi) <;> simp at hi
    obtain ⟨rfl, rfl⟩ := hi
    exact ⟨_, Verif.Spec.Alone.get_set ht, rfl⟩
  refine Classical.byContradiction fun hn => ?_
  have hall := from_on (p := fun j => ∃ p, (st j).ths[t]? = some p ∧ p.timed = true) h0 fun j hj hp => by
    rcases timed_on h hp with h1 | h1
    · exact absurd ⟨j, by omega, h1⟩ hn
    · exact h1
  obtain ⟨j, hj, he⟩ := htime t (i + 1) (fun j hj he => hn ⟨j, by omega, he⟩) fun m => by
    obtain ⟨p, hp, hl⟩ := hall (max m (i + 1)) (by omega)
    obtain ⟨j, hj, h1 | h1⟩ := timed_arrives h hs _ (Nat.le_refl _) hp hl
    · exact absurd ⟨j, by omega, h1⟩ hn
    · exact ⟨j, by omega, h1.2⟩
  have hst := h.next j
  rw [he] at hst
  obtain ⟨p, hp, hl⟩ := hall j hj
  have e : p = .asleep .timed := by
    refine Classical.byContradiction fun hne => ?_
    cases p <;> simp [step, hp] at hst
    rename_i k; cases k <;> first | exact hne rfl | (simp at hst; done) | cases hl
  subst e
  obtain ⟨b, e, hb⟩ := timed_asleep hst hp
  cases hb rfl
  obtain ⟨l, hl, r | r⟩ := timed_arrives h hs _ (Nat.le_refl _) e rfl
  · exact hn ⟨l, by omega, r⟩
  · cases r.1

/-- The hypotheses can be met: a thread waits with a time limit again and again for a semaphore that nobody posts. -/
example : ∃ st lbl ev, Endless (step (semaphore interrupts 0)) (init (semaphore interrupts 0) 1) st lbl ev ∧ Served (step (semaphore interrupts 0)) Next st lbl ∧
    Timely SleepsTimed TimedEnds .timeout st lbl ev ∧ Often fun j => .called 0 (.acq .timed) ∈ ev j := by
  obtain ⟨st, lbl, ev, h1, _, h3, h4⟩ := endless_of_rounds (step := step (semaphore interrupts 0)) (good := fun s l _ => s.ths.length = 1 ∧ l.1 = 0)
    (P := fun s => s = ⟨0, none, [.idle]⟩) (R := fun (b : Bool) l es => if b then l = (0, .timeout) else .called 0 (.acq .timed) ∈ es)
    (s₀ := init (semaphore interrupts 0) 1) (s := ⟨0, none, [.idle]⟩) true (by
      rintro s rfl
      refine ⟨[((0, .call (.acq .timed)), [.called 0 (.acq .timed)]), ((0, .go), []), ((0, .go), []), ((0, .timeout), [.timedOut 0]), ((0, .go), []), ((0, .go), []),
        ((0, .go), [.ret 0 (.acq .timed) false])], ?_⟩
      apply Exists.intro
      refine ⟨?_, rfl, fun b => ?_⟩
      · iterate 7 refine ⟨_, by with_unfolding_all rfl, ⟨rfl, rfl⟩, ?_⟩
        exact rfl
      · cases b
        · exact ⟨((0, .call (.acq .timed)), [.called 0 (.acq .timed)]), by simp, by simp⟩
        · exact ⟨((0, .timeout), [.timedOut 0]), by simp, by simp⟩)
    ⟨_, exec_of_run (r := (_, _)) (ls := []) rfl⟩ rfl
  refine ⟨st, lbl, ev, h1, fun t hr i => ?_, fun t i _ ho => ?_, fun i => ?_⟩
  · obtain ⟨j, hj, a, r, _, hst⟩ := hr i
    have hz : t = 0 := by
      refine Classical.byContradiction fun hne => ?_
      simp only [step] at hst
      rw [List.getElem?_eq_none (by rw [(h3 j).1]; omega)] at hst; cases hst
    exact ⟨j, hj, (h3 j).2.trans hz.symm⟩
  · obtain ⟨j, hj, he⟩ := ho i
    have hz : t = 0 := by
      refine Classical.byContradiction fun hne => ?_
      unfold SleepsTimed at he
      rw [List.getElem?_eq_none (by rw [(h3 j).1]; omega)] at he; cases he
    subst hz
    exact h4 true i
  · exact h4 false i

end Verif.Monitor

namespace Verif.AutoSem

open Verif.Atomic (Kind Op Ev One)

/-- Thread `t` waits for the semaphore with a time limit. -/
def SleepsTimed (s : St) (t : Nat) : Prop := s.ths[t]? = some (.wSem .timed)

/-- **C118** (`auto_reset_event` over a semaphore): a wait with a time limit returns or throws, whether or not the event is posted, in every execution without end in which no
thread is forgotten and time passes. -/
theorem C118_timed_wait (n : Nat) (st : Nat → St) (lbl : Nat → Nat × Act) (ev : Nat → List (Ev One)) (h : Endless step (init n) st lbl ev)
    (hs : Scheduled step Next st lbl) (htime : Timely SleepsTimed TimedEnds .timeout st lbl ev) (t i : Nat) (hi : .called t (.acq .timed) ∈ ev i) :
    ∃ j, i < j ∧ TimedEnds t (ev j) := by
  have h0 : (st (i + 1)).ths[t]? = some (.wAdd .timed) := by
    have hst := h.next i
    generalize lbl i = l at hst
    obtain ⟨u, a⟩ := l
    revert hst hi; generalize st (i + 1) = s', ev i = es; intro hi hst
    unfold step at hst
    simp only at hst
    split at hst
    · cases hst
    next pc ht =>
    split at hst <;> (repeat' split at hst) <;> (try contradiction) <;> cases hst <;> simp at hi
    obtain ⟨rfl, rfl⟩ := hi
    exact List.getElem?_set_self (List.getElem?_eq_some_iff.1 ht).1
  refine Classical.byContradiction fun hn => ?_
  obtain ⟨j, hj, e⟩ := timed_ends h hs h0 fun ho m => by
    obtain ⟨j, hj, e⟩ := htime t (max m (i + 1)) (fun j hj he => hn ⟨j, by omega, he⟩) ho
    exact ⟨j, by omega, e⟩
  exact hn ⟨j, by omega, e⟩

/-- The hypotheses can be met: a thread waits with a time limit again and again for an event that nobody posts. -/
example : ∃ st lbl ev, Endless step (init 1) st lbl ev ∧ Scheduled step Next st lbl ∧ Timely SleepsTimed TimedEnds .timeout st lbl ev ∧
    Often fun j => .called 0 (.acq .timed) ∈ ev j := by
  obtain ⟨st, lbl, ev, h1, _, h3, h4⟩ := endless_of_rounds (step := step) (good := fun s l _ => s.ths.length = 1 ∧ l.1 = 0)
    (P := fun s => s = ⟨0, 0, [.idle]⟩) (R := fun (b : Bool) l es => if b then l = (0, .timeout) else .called 0 (.acq .timed) ∈ es)
    (s₀ := init 1) (s := ⟨0, 0, [.idle]⟩) true (by
      rintro s rfl
      refine ⟨[((0, .call (.acq .timed)), [.called 0 (.acq .timed)]), ((0, .go), []), ((0, .timeout), [.timedOut 0]), ((0, .go), []),
        ((0, .go), [.ret 0 (.acq .timed) false])], ?_⟩
      apply Exists.intro
      refine ⟨?_, rfl, fun b => ?_⟩
      · iterate 5 refine ⟨_, by with_unfolding_all rfl, ⟨rfl, rfl⟩, ?_⟩
        exact rfl
      · cases b
        · exact ⟨((0, .call (.acq .timed)), [.called 0 (.acq .timed)]), by simp, by simp⟩
        · exact ⟨((0, .timeout), [.timedOut 0]), by simp, by simp⟩)
    ⟨_, exec_of_run (r := (_, _)) (ls := []) rfl⟩ rfl
  refine ⟨st, lbl, ev, h1, scheduled_of_often (n := 1) (fun u hu i => ⟨i, Nat.le_refl _, (h3 i).2.trans (by omega)⟩) fun i u hu ⟨a, r, _, hst⟩ => ?_, fun t i _ ho => ?_, fun i => ?_⟩
  · simp only [step] at hst
    rw [List.getElem?_eq_none (by rw [(h3 i).1]; omega)] at hst; cases hst
  · obtain ⟨j, hj, he⟩ := ho i
    have hz : t = 0 := by
      refine Classical.byContradiction fun hne => ?_
      unfold SleepsTimed at he
      rw [List.getElem?_eq_none (by rw [(h3 j).1]; omega)] at he; cases he
    subst hz
    exact h4 true i
  · exact h4 false i

end Verif.AutoSem

namespace Verif.ManualFutex

/-- Thread `t` is in the futex wait of a call with a time limit, or about to look at the time and enter it. -/
def SleepsTimed (s : St) (t : Nat) : Prop := ∃ th, s.ths[t]? = some th ∧ ((∃ e b, th.pc = .sleepCall .timed e b) ∨ ∃ b, th.pc = .asleep .timed b)

/-- A call with a time limit returns. -/
def TimedEnds (t : Nat) (es : List Ev) : Prop := ∃ b, .timedDone t b ∈ es

/-- The two ways to learn that the time limit has passed. -/
def TimeOver (a : Act) : Prop := a = .timeout ∨ a = .expired

/-- **C118** (`manual_reset_event` over a futex): a wait with a time limit returns, whether or not the event is set, even if it is set and reset again and again, in every
execution without end in which no thread is forgotten and time passes. -/
theorem C118_timed_wait (n : Nat) (st : Nat → St) (lbl : Nat → Nat × Act) (ev : Nat → List Ev) (h : Endless step (init n) st lbl ev)
    (hs : Scheduled step Next st lbl) (htime : TimelyBy SleepsTimed TimedEnds TimeOver st lbl ev) (t i : Nat) (hi : .called t .timedWait ∈ ev i) :
    ∃ j, i < j ∧ TimedEnds t (ev j) := by
  have hF : ∀ j, Fresh (st j) := fun j => fresh_reach (h.reachable j)
  have h0 : ∃ th, (st (i + 1)).ths[t]? = some th ∧ (th.pc.sleeps = true ∨ th.pc.awake = true) := by
    have hst := h.next i
    generalize lbl i = l at hst
    obtain ⟨u, a⟩ := l
    revert hst hi; generalize st (i + 1) = s', ev i = es; intro hi hst
    unfold step at hst
    simp only at hst
    split at hst
    · cases hst
    next th ht =>
    split at hst <;> (repeat' split at hst) <;> (try contradiction) <;> cases hst <;> (try (unfold retEv at hi; split at hi)) <;> simp at hi
    subst hi
    exact ⟨_, Verif.Spec.Alone.get_set ht, .inr rfl⟩
  refine Classical.byContradiction fun hn => ?_
  have hall := from_on (p := fun j => ∃ th, (st j).ths[t]? = some th ∧ (th.pc.sleeps = true ∨ th.pc.awake = true)) h0 fun j hj hp => by
    rcases timed_on h hp with h1 | h1
    · exact absurd ⟨j, by omega, h1⟩ hn
    · exact h1
  have hsl : ∀ {th : Th}, th.pc.sleeps = true → (∃ e b, th.pc = .sleepCall .timed e b) ∨ ∃ b, th.pc = .asleep .timed b := by
    rintro ⟨pc, v⟩ hp
    cases pc with
    | sleepCall k e b => cases k <;> cases hp; exact .inl ⟨_, _, rfl⟩
    | asleep k b => cases k <;> cases hp; exact .inr ⟨_, rfl⟩
    | _ => cases hp
  obtain ⟨j, a, hj, ha, he⟩ := htime t (i + 1) (fun j hj he => hn ⟨j, by omega, he⟩) fun m => by
    obtain ⟨th, ht, hp | hp⟩ := hall (max m (i + 1)) (by omega)
    · exact ⟨_, by omega, th, ht, hsl hp⟩
    · obtain ⟨j, hj, h1 | ⟨_, th', h1, h2⟩⟩ := timed_arrives h hF hs _ (Nat.le_refl _) ht hp
      · exact absurd ⟨j, by omega, h1⟩ hn
      · exact ⟨j, by omega, th', h1, hsl h2⟩
  have hst := h.next j
  rw [he] at hst
  obtain ⟨th, ht, hp | hp⟩ := hall j hj
  · obtain ⟨th', e, _, hto⟩ := timed_sleep hst ht hp
    obtain ⟨l, hl, r | r⟩ := timed_arrives h hF hs _ (Nat.le_refl _) e (by rw [hto ha]; rfl)
    · exact hn ⟨l, by omega, r⟩
    · exact r.1 (hto ha)
  · obtain ⟨pc, v⟩ := th
    rcases ha with rfl | rfl <;> simp only [step, ht] at hst <;> cases pc <;> first | cases hp; done | (simp at hst; done)

/-- The hypotheses can be met: a thread waits with a time limit again and again for an event that nobody sets. -/
example : ∃ st lbl ev, Endless step (init 1) st lbl ev ∧ Scheduled step Next st lbl ∧ TimelyBy SleepsTimed TimedEnds TimeOver st lbl ev ∧
    Often fun j => .called 0 .timedWait ∈ ev j := by
  obtain ⟨st, lbl, ev, h1, _, h3, h4⟩ := endless_of_rounds (step := step) (good := fun s l _ => s.ths.length = 1 ∧ l.1 = 0)
    (P := fun s => s = ⟨⟨0, []⟩, [⟨.idle, []⟩], 0, 0⟩) (R := fun (b : Bool) l es => if b then l = (0, .timeout) else .called 0 .timedWait ∈ es)
    (s₀ := init 1) (s := ⟨⟨0, []⟩, [⟨.idle, []⟩], 0, 0⟩) true (by
      rintro s rfl
      refine ⟨[((0, .call .timedWait), [.called 0 .timedWait]), ((0, .go), []), ((0, .go), []), ((0, .go), []), ((0, .timeout), []), ((0, .go), [.timedDone 0 false])], ?_⟩
      apply Exists.intro
      refine ⟨?_, rfl, fun b => ?_⟩
      · iterate 6 refine ⟨_, by with_unfolding_all rfl, ⟨rfl, rfl⟩, ?_⟩
        exact rfl
      · cases b
        · exact ⟨((0, .call .timedWait), [.called 0 .timedWait]), by simp, by simp⟩
        · exact ⟨((0, .timeout), []), by simp, by simp⟩)
    ⟨_, exec_of_run (r := (_, _)) (ls := []) rfl⟩ rfl
  refine ⟨st, lbl, ev, h1, scheduled_of_often (n := 1) (fun u hu i => ⟨i, Nat.le_refl _, (h3 i).2.trans (by omega)⟩) fun i u hu ⟨a, r, _, hst⟩ => ?_, fun t i _ ho => ?_, fun i => ?_⟩
  · simp only [step] at hst
    rw [List.getElem?_eq_none (by rw [(h3 i).1]; omega)] at hst; cases hst
  · obtain ⟨j, hj, th, he, _⟩ := ho i
    have hz : t = 0 := by
      refine Classical.byContradiction fun hne => ?_
      rw [List.getElem?_eq_none (by rw [(h3 j).1]; omega)] at he; cases he
    subst hz
    obtain ⟨k, hk, e⟩ := h4 true i
    exact ⟨k, .timeout, hk, .inl rfl, e⟩
  · exact h4 false i

end Verif.ManualFutex
