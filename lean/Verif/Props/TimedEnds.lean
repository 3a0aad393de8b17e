import Verif.Proof.TimedEnds
import Verif.Proof.TimedEndsWin
import Verif.Spec.TimedEnds

/-! C117: waits of condition variables with a time limit come to an end. -/

open Verif.Spec.Endless

namespace Verif.CvAny

/-- The wait of thread `t` ends, or the process does. -/
def TimedOver (t : Nat) (es : List Ev) : Prop := (∃ r, .ret t r ∈ es) ∨ .terminated t ∈ es

/-- Thread `t` sleeps in a wait with a time limit of the system's clock. -/
def SleepsTimed (s : St) (t : Nat) : Prop := s.ths[t]? = some (.blocked .timed)

/-- **C117** (`condition_variable_any`): a wait with a time limit ends, notified or not, in every execution without end in which no thread that can take its next step again
and again is passed over for ever, time passes and the user's lock is free again and again. -/
theorem C117_timed_wait (n : Nat) (st : Nat → St) (lbl : Nat → Nat × Act) (ev : Nat → List Ev) (h : Endless step (init n) st lbl ev)
    (hs : Served step Next st lbl) (htime : Timely SleepsTimed TimedOver .timeout st lbl ev) (hf : Often fun j => (st j).user = none) (t i : Nat)
    (hi : .called t .timed ∈ ev i) : ∃ j, i < j ∧ TimedOver t (ev j) := by
  have h0 : (st (i + 1)).ths[t]? = some (.wLock .timed) := by
    have hst := h.next i
    generalize lbl i = l at hst
    obtain ⟨u, a⟩ := l
    unfold step at hst
    simp only at hst
    split at hst
    · cases hst
    next pc ht =>
    split at hst <;> (try split at hst) <;> (try contradiction) <;> (simp only [Option.some.injEq, Prod.mk.injEq] at hst; obtain ⟨e1, e2⟩ := hst; rw [← e2] at hi; simp at hi)
    obtain ⟨rfl, rfl⟩ := hi
    rw [← e1]; exact get_set_self ht
  refine Classical.byContradiction fun hn => ?_
  obtain ⟨j, hj, he⟩ := timed_ends h hs hf (fun ho m => by
    obtain ⟨j, hj, e⟩ := htime t (max m (i + 1)) (fun j hj he => hn ⟨j, by omega, he⟩) ho
    exact ⟨j, by omega, e⟩) h0
  exact hn ⟨j, by omega, he⟩

/-- The hypotheses can be met: a thread waits with a time limit again and again, and nobody notifies it. -/
example : ∃ st lbl ev, Endless step (init 1) st lbl ev ∧ Served step Next st lbl ∧ Timely SleepsTimed TimedOver .timeout st lbl ev ∧
    (Often fun j => (st j).user = none) ∧ Often fun j => .called 0 .timed ∈ ev j := by
  obtain ⟨st, lbl, ev, h1, _, h3, h4⟩ := endless_of_rounds (step := step) (good := fun s l _ => s.ths.length = 1 ∧ l.1 = 0 ∧ (l.2 = .timeout → s.user = none))
    (P := fun s => s = ⟨some 0, none, [.idle]⟩) (R := fun (b : Bool) l es => if b then l = (0, .timeout) else .called 0 .timed ∈ es)
    (s₀ := init 1) (s := ⟨some 0, none, [.idle]⟩) true (by
      rintro s rfl
      refine ⟨[((0, .wait .timed), [.called 0 .timed]), ((0, .go), []), ((0, .go), [.released 0]), ((0, .go), []), ((0, .timeout), []), ((0, .go), []), ((0, .go), []),
        ((0, .go), [.relocked 0, .ret 0 .timeout])], ?_⟩
      apply Exists.intro
      refine ⟨?_, rfl, fun b => ?_⟩
      · iterate 8 refine ⟨_, by with_unfolding_all rfl, by decide, ?_⟩
        exact rfl
      · cases b
        · exact ⟨((0, .wait .timed), [.called 0 .timed]), by decide, by decide⟩
        · exact ⟨((0, .timeout), []), by decide, by decide⟩)
    ⟨_, exec_of_run (r := (_, _)) (ls := [(0, .lockUser)]) rfl⟩ rfl
  refine ⟨st, lbl, ev, h1, fun t hr i => ?_, fun t i _ ho => ?_, fun i => ?_, fun i => ?_⟩
  · obtain ⟨j, hj, a, r, _, hst⟩ := hr i
    have hz : t = 0 := by
      refine Classical.byContradiction fun hne => ?_
      simp only [step] at hst
      rw [List.getElem?_eq_none (by rw [(h3 j).1]; omega)] at hst; cases hst
    exact ⟨j, hj, (h3 j).2.1.trans hz.symm⟩
  · obtain ⟨j, hj, he⟩ := ho i
    have hz : t = 0 := by
      refine Classical.byContradiction fun hne => ?_
      unfold SleepsTimed at he
      rw [List.getElem?_eq_none (by rw [(h3 j).1]; omega)] at he; cases he
    subst hz
    exact h4 true i
  · obtain ⟨j, hj, e⟩ := h4 true i
    exact ⟨j, hj, (h3 j).2.2 (by rw [show lbl j = (0, .timeout) from e])⟩
  · exact h4 false i

end Verif.CvAny

namespace Verif.WinCv

/-- The wait of thread `t` ends. -/
def TimedOver (t : Nat) (es : List Ev) : Prop := ∃ r, .ret t r ∈ es

/-- Thread `t` sleeps in a wait with a time limit. -/
def SleepsTimed (s : St) (t : Nat) : Prop := ∃ k q, k.timed = true ∧ s.ths[t]? = some (.blocked k q)

/-- **C117** (condition variable of Windows): a wait with a time limit ends, notified or not, even if others take units of the semaphore meant for it again and again, in
every execution without end in which no thread that can take its next step again and again is passed over for ever, time passes and the user's lock is free again and
again. -/
theorem C117_timed_wait (n : Nat) (st : Nat → St) (lbl : Nat → Nat × Act) (ev : Nat → List Ev) (h : Endless step (init n) st lbl ev)
    (hs : Served step Next st lbl) (htime : Timely SleepsTimed TimedOver .timeout st lbl ev) (hf : Often fun j => (st j).user = none) (t i : Nat) (k : Kind)
    (hk : k ≠ .wait) (hi : .called t k ∈ ev i) : ∃ j, i < j ∧ TimedOver t (ev j) := by
  have h0 : ∃ p, (st (i + 1)).ths[t]? = some p ∧ p.limited = true := by
    have hst := h.next i
    generalize lbl i = l at hst
    obtain ⟨u, a⟩ := l
    unfold step at hst
    simp only at hst
    split at hst
    · cases hst
    next pc ht =>
    split at hst <;> (try split at hst) <;> (try split at hst) <;> (try split at hst) <;> (try contradiction) <;> (simp only [Option.some.injEq, Prod.mk.injEq] at hst; obtain ⟨e1, e2⟩ := hst; rw [← e2] at hi; simp at hi)
    · obtain ⟨rfl, rfl⟩ := hi
      exact ⟨_, by rw [← e1]; exact get_set_self ht, rfl⟩
    · obtain ⟨rfl, rfl⟩ := hi
      refine ⟨_, by rw [← e1]; exact get_set_self ht, ?_⟩
      cases k <;> first | exact absurd rfl hk | rfl
  refine Classical.byContradiction fun hn => ?_
  have hall := from_on (p := fun j => ∃ p, (st j).ths[t]? = some p ∧ p.limited = true) h0 fun j hj ⟨p, hp, hl⟩ => by
    rcases limited_on h hp hl with h1 | h1
    · exact absurd ⟨j, by omega, h1⟩ hn
    · exact h1
  obtain ⟨j, hj, he⟩ := htime t (i + 1) (fun j hj he => hn ⟨j, by omega, he⟩) fun m => by
    obtain ⟨p, hp, hl⟩ := hall (max m (i + 1)) (by omega)
    obtain ⟨j, hj, h1 | h1⟩ := limited_sleeps h hs hf _ _ p (Nat.le_refl _) hp hl
    · exact absurd ⟨j, by omega, h1⟩ hn
    · exact ⟨j, by omega, h1⟩
  have hst := h.next j
  rw [he] at hst
  obtain ⟨q, hq⟩ : ∃ q, (st (j + 1)).ths[t]? = some (.expired q) := by
    obtain ⟨p, hp, hl⟩ := hall j hj
    simp only [step, hp] at hst
    cases p <;> simp at hst
    exact ⟨_, by rw [← hst.2.1]; exact get_set_self hp⟩
  obtain ⟨l, hl, r⟩ := expired_ends h hs hf hq
  exact hn ⟨l, by omega, r⟩

/-- The hypotheses can be met: a thread waits with a time limit again and again, and nobody notifies it. -/
example : ∃ st lbl ev, Endless step (init 1) st lbl ev ∧ Served step Next st lbl ∧ Timely SleepsTimed TimedOver .timeout st lbl ev ∧
    (Often fun j => (st j).user = none) ∧ Often fun j => .called 0 .rel ∈ ev j := by
  obtain ⟨st, lbl, ev, h1, _, h3, h4⟩ := endless_of_rounds (step := step) (good := fun s l _ => s.ths.length = 1 ∧ l.1 = 0 ∧ (l.2 = .timeout → s.user = none))
    (P := fun s => s = ⟨[⟨0, 0, 0, 0, []⟩], 0, 0, 0, none, some 0, 0, [.idle]⟩) (R := fun (b : Bool) l es => if b then l = (0, .timeout) else .called 0 .rel ∈ es)
    (s₀ := init 1) (s := ⟨[⟨0, 0, 0, 0, []⟩], 0, 0, 0, none, some 0, 0, [.idle]⟩) true (by
      rintro s rfl
      refine ⟨[((0, .callWait .rel), [.called 0 .rel]), ((0, .go), []), ((0, .go), []), ((0, .go), [.registered 0]), ((0, .go), []), ((0, .go), [.unlocked 0]), ((0, .timeout), []),
        ((0, .go), []), ((0, .go), []), ((0, .go), [.ret 0 .timeout])], ?_⟩
      apply Exists.intro
      refine ⟨?_, rfl, fun b => ?_⟩
      · iterate 10 refine ⟨_, by with_unfolding_all rfl, by decide, ?_⟩
        exact rfl
      · cases b
        · exact ⟨((0, .callWait .rel), [.called 0 .rel]), by decide, by decide⟩
        · exact ⟨((0, .timeout), []), by decide, by decide⟩)
    ⟨_, exec_of_run (r := (_, _)) (ls := [(0, .userLock), (0, .callWait .rel), (0, .go), (0, .go), (0, .go), (0, .go), (0, .timeout), (0, .go), (0, .go), (0, .go)]) rfl⟩ rfl
  refine ⟨st, lbl, ev, h1, fun t hr i => ?_, fun t i _ ho => ?_, fun i => ?_, fun i => ?_⟩
  · obtain ⟨j, hj, a, r, _, hst⟩ := hr i
    have hz : t = 0 := by
      refine Classical.byContradiction fun hne => ?_
      simp only [step] at hst
      rw [List.getElem?_eq_none (by rw [(h3 j).1]; omega)] at hst; cases hst
    exact ⟨j, hj, (h3 j).2.1.trans hz.symm⟩
  · obtain ⟨j, hj, k, q, _, he⟩ := ho i
    have hz : t = 0 := by
      refine Classical.byContradiction fun hne => ?_
      rw [List.getElem?_eq_none (by rw [(h3 j).1]; omega)] at he; cases he
    subst hz
    exact h4 true i
  · obtain ⟨j, hj, e⟩ := h4 true i
    exact ⟨j, hj, (h3 j).2.2 (by rw [show lbl j = (0, .timeout) from e])⟩
  · exact h4 false i

end Verif.WinCv

namespace Verif.CondVarPosix

variable {D : Type}

/-- The wait of thread `t` ends. -/
def TimedOver (t : Nat) (es : List (Ev D)) : Prop := (∃ b, .ret t b ∈ es) ∨ .threw t ∈ es

/-- Thread `t` sleeps in a wait with a time limit of the system's clock. -/
def SleepsTimed (s : St D) (t : Nat) : Prop := ∃ p, s.ths[t]? = some (.asleep .system p)

/-- **C117** (`condition_variable` for pthreads): a wait with a time limit ends, notified or not, with a predicate (that may be false all the time) or without, even if
sleeps are interrupted, in every execution without end in which no thread that can take its next step again and again is passed over for ever, time passes and the mutex is
free again and again. -/
theorem C117_timed_wait (bug : Bool) (n : Nat) (d₀ : D) (st : Nat → St D) (lbl : Nat → Nat × Act D) (ev : Nat → List (Ev D))
    (h : Endless (step bug) (init n d₀) st lbl ev) (hs : Served (step bug) Next st lbl) (htime : Timely SleepsTimed TimedOver .timeout st lbl ev)
    (hf : Often fun j => (st j).owner = none) (t i : Nat) (p : Option (D → Bool)) (hi : .called t .system p ∈ ev i) : ∃ j, i < j ∧ TimedOver t (ev j) := by
  have h0 : ∃ p, (st (i + 1)).ths[t]? = some p ∧ p.limited = true := by
    have hst := h.next i
    generalize lbl i = l at hst
    obtain ⟨u, a⟩ := l
    unfold step at hst
    simp only at hst
    split at hst
    · cases hst
    next pc ht =>
    split at hst <;> (try split at hst) <;> (try split at hst) <;> (try contradiction) <;> (simp only [Option.some.injEq, Prod.mk.injEq] at hst; obtain ⟨e1, e2⟩ := hst; rw [← e2] at hi; simp at hi)
    · obtain ⟨rfl, rfl, _⟩ := hi
      exact ⟨_, by rw [← e1]; exact get_set_self ht, rfl⟩
    · obtain ⟨rfl, rfl, _⟩ := hi
      exact ⟨_, by rw [← e1]; exact get_set_self ht, rfl⟩
  refine Classical.byContradiction fun hn => ?_
  have hall := from_on (p := fun j => ∃ p, (st j).ths[t]? = some p ∧ p.limited = true) h0 fun j hj ⟨p, hp, hl⟩ => by
    rcases limited_step (t := (lbl j).1) (a := (lbl j).2) (h.next j) hp hl with h1 | h1
    · exact absurd ⟨j, by omega, h1⟩ hn
    · exact h1
  obtain ⟨j, hj, he⟩ := htime t (i + 1) (fun j hj he => hn ⟨j, by omega, he⟩) fun m => by
    obtain ⟨p, hp, hl⟩ := hall (max m (i + 1)) (by omega)
    obtain ⟨j, hj, h1 | h1⟩ := limited_sleeps h hs hf hp hl
    · exact absurd ⟨j, by omega, h1⟩ hn
    · exact ⟨j, by omega, h1⟩
  have hst := h.next j
  rw [he] at hst
  obtain ⟨q, hq⟩ : ∃ q, (st (j + 1)).ths[t]? = some (.wake .system q .timeout) := by
    obtain ⟨p, hp, hl⟩ := hall j hj
    simp only [step, hp] at hst
    cases p <;> simp at hst
    rename_i k q
    cases k <;> simp [PC.limited] at hl
    exact ⟨_, by rw [← hst.2.1]; exact get_set_self hp⟩
  obtain ⟨l, hl, r⟩ := timed_out_ends h hs hf hq
  exact hn ⟨l, by omega, r⟩

/-- The hypotheses can be met: a thread waits with a time limit for what never comes true, again and again, and nobody notifies it. -/
example : ∃ st lbl ev, Endless (step false) (init 1 (0 : Nat)) st lbl ev ∧ Served (step false) Next st lbl ∧ Timely SleepsTimed TimedOver .timeout st lbl ev ∧
    (Often fun j => (st j).owner = none) ∧ Often fun j => ∃ p, .called 0 .system (some p) ∈ ev j ∧ ∀ d, p d = false := by
  let p : Nat → Bool := fun _ => false
  obtain ⟨st, lbl, ev, h1, _, h3, h4⟩ := endless_of_rounds (step := step false) (good := fun s l _ => s.ths.length = 1 ∧ l.1 = 0 ∧ (l.2 = .timeout → s.owner = none))
    (P := fun s => s = ⟨some 0, 0, [.idle]⟩) (R := fun (b : Bool) l es => if b then l = (0, .timeout) else .called 0 .system (some p) ∈ es)
    (s₀ := init 1 (0 : Nat)) (s := ⟨some 0, 0, [.idle]⟩) true (by
      rintro s rfl
      refine ⟨[((0, .wait .system (some p)), [.called 0 .system (some p)]), ((0, .go), []), ((0, .go), [.slept 0]), ((0, .timeout), []), ((0, .go), [.relocked 0, .expired 0]),
        ((0, .go), [.ret 0 false])], ?_⟩
      apply Exists.intro
      refine ⟨?_, rfl, fun b => ?_⟩
      · refine ⟨_, by with_unfolding_all rfl, ⟨rfl, rfl, nofun⟩, ?_⟩
        refine ⟨_, by with_unfolding_all rfl, ⟨rfl, rfl, nofun⟩, ?_⟩
        refine ⟨_, by with_unfolding_all rfl, ⟨rfl, rfl, nofun⟩, ?_⟩
        refine ⟨_, by with_unfolding_all rfl, ⟨rfl, rfl, fun _ => rfl⟩, ?_⟩
        refine ⟨_, by with_unfolding_all rfl, ⟨rfl, rfl, nofun⟩, ?_⟩
        refine ⟨_, by with_unfolding_all rfl, ⟨rfl, rfl, nofun⟩, ?_⟩
        exact rfl
      · cases b
        · exact ⟨((0, .wait .system (some p)), [.called 0 .system (some p)]), by simp, by simp⟩
        · exact ⟨((0, .timeout), []), by simp, by simp⟩)
    ⟨_, exec_of_run (r := (_, _)) (ls := [(0, .lock)]) rfl⟩ rfl
  refine ⟨st, lbl, ev, h1, fun t hr i => ?_, fun t i _ ho => ?_, fun i => ?_, fun i => ?_⟩
  · obtain ⟨j, hj, a, r, _, hst⟩ := hr i
    have hz : t = 0 := by
      refine Classical.byContradiction fun hne => ?_
      simp only [step] at hst
      rw [List.getElem?_eq_none (by rw [(h3 j).1]; omega)] at hst; cases hst
    exact ⟨j, hj, (h3 j).2.1.trans hz.symm⟩
  · obtain ⟨j, hj, q, he⟩ := ho i
    have hz : t = 0 := by
      refine Classical.byContradiction fun hne => ?_
      rw [List.getElem?_eq_none (by rw [(h3 j).1]; omega)] at he; cases he
    subst hz
    exact h4 true i
  · obtain ⟨j, hj, e⟩ := h4 true i
    exact ⟨j, hj, (h3 j).2.2 (by rw [show lbl j = (0, .timeout) from e])⟩
  · obtain ⟨j, hj, e⟩ := h4 false i
    exact ⟨j, hj, p, e, fun _ => rfl⟩

end Verif.CondVarPosix
