import Verif.Proof.ClockEnds
import Verif.Props.TimedEnds

/-! C120: waits of condition variables for a time point of a clock of the user come to an end, if the clock reaches it. -/

open Verif.Spec.Endless

namespace Verif.CvAny

/-- Thread `t` sleeps in a wait for a time point of a clock of the user. -/
def SleepsClocked (s : St) (t : Nat) : Prop := s.ths[t]? = some (.blocked .clocked)

/-- Thread `t` reads the clock of the user. -/
def ReadsClock (s : St) (t : Nat) : Prop := s.ths[t]? = some .wClock

/-- **C120** (`condition_variable_any`): a wait for a time point of a clock of the user ends, notified or not, however often the clock turns out to be late, in every
execution without end in which no thread that can take its next step again and again is passed over for ever, sleeps end after their time, the clock reaches the time point
and the user's lock is free again and again. -/
theorem C120_clocked_wait (n : Nat) (st : Nat → St) (lbl : Nat → Nat × Act) (ev : Nat → List Ev) (h : Endless step (init n) st lbl ev)
    (hs : Served step Next st lbl) (htime : Timely SleepsClocked TimedOver .timeout st lbl ev) (hclock : Reaches ReadsClock TimedOver .go st lbl ev)
    (hf : Often fun j => (st j).user = none) (t i : Nat) (hi : .called t .clocked ∈ ev i) : ∃ j, i < j ∧ TimedOver t (ev j) := by
  have h0 : (st (i + 1)).ths[t]? = some (.wLock .clocked) := by
    have hst := h.next i
    generalize lbl i = l at hst
    obtain ⟨u, a⟩ := l
    unfold step at hst
    simp only at hst
    split at hst
    · cases hst
    next pc ht =>
    split at hst <;> (try split at hst) <;> (try contradiction) <;> (simp only [Option.some.injEq, Prod.mk.injEq] at hst; obtain ⟨e1, e2⟩ := hst; rw [← e2] at hi; simp at hi)
    obtain ⟨rfl, rfl⟩ := hi
    rw [← e1]; exact get_set_self ht
  refine Classical.byContradiction fun hn => ?_
  obtain ⟨j, hj, ⟨r, he⟩ | hq⟩ := clocked_reads h hs h0
  · exact hn ⟨j, by omega, .inl ⟨r, he⟩⟩
  have hmore : ∀ m, ∃ j, max m (i + 1) ≤ j ∧ (st j).ths[t]? = some .wClock := by
    intro m
    induction m with
    | zero => exact ⟨j, by omega, hq⟩
    | succ m ih =>
      obtain ⟨k, hk, hq⟩ := ih
      obtain ⟨l, hl, he | ⟨hlt, hq⟩⟩ := clocked_again h hs hf (fun ho m => by
        obtain ⟨j, hj, e⟩ := htime t (max m (i + 1)) (fun j hj he => hn ⟨j, by omega, he⟩) ho
        exact ⟨j, by omega, e⟩) hq
      · exact absurd ⟨l, by omega, he⟩ hn
      · exact ⟨l, by omega, hq⟩
  obtain ⟨k, hk, hr, hl⟩ := hclock t (i + 1) (fun j hj he => hn ⟨j, by omega, he⟩) fun m => by
    obtain ⟨l, hl, hq⟩ := hmore m
    exact ⟨l, by omega, hq⟩
  have hst := h.next k
  rw [hl] at hst
  simp only [ReadsClock] at hr
  simp [step, hr] at hst
  obtain ⟨l, hl, r⟩ := wExit_ends h hs hf (i := k + 1) (t := t) (by rw [← hst.1]; exact get_set_self hr)
  exact hn ⟨l, by omega, r⟩

/-- The hypotheses can be met: a thread waits again and again, and each time the clock has not reached the time point when it is read for the first time. -/
example : ∃ st lbl ev, Endless step (init 1) st lbl ev ∧ Served step Next st lbl ∧ Timely SleepsClocked TimedOver .timeout st lbl ev ∧
    Reaches ReadsClock TimedOver .go st lbl ev ∧ (Often fun j => (st j).user = none) ∧ (Often fun j => lbl j = (0, .again)) ∧ Often fun j => .called 0 .clocked ∈ ev j := by
  obtain ⟨st, lbl, ev, h1, _, h3, h4⟩ := endless_of_rounds (step := step)
    (good := fun s l es => s.ths.length = 1 ∧ l.1 = 0 ∧ (l.2 = .timeout → s.user = none))
    (P := fun s => s = ⟨some 0, none, [.idle]⟩)
    (R := fun (b : Fin 4) l es => if b = 0 then l = (0, .timeout) else if b = 1 then .called 0 .clocked ∈ es else if b = 2 then l = (0, .again) else .ret 0 .timeout ∈ es)
    (s₀ := init 1) (s := ⟨some 0, none, [.idle]⟩) 0 (by
      rintro s rfl
      refine ⟨[((0, .wait .clocked), [.called 0 .clocked]), ((0, .go), []), ((0, .go), [.released 0]), ((0, .again), []), ((0, .go), []), ((0, .timeout), []), ((0, .go), []),
        ((0, .go), []), ((0, .go), []), ((0, .go), [.relocked 0, .ret 0 .timeout])], ?_⟩
      apply Exists.intro
      refine ⟨?_, rfl, fun b => ?_⟩
      · iterate 10 refine ⟨_, by with_unfolding_all rfl, by decide, ?_⟩
        exact rfl
      · match b with
        | 0 => exact ⟨((0, .timeout), []), by decide, by decide⟩
        | 1 => exact ⟨((0, .wait .clocked), [.called 0 .clocked]), by decide, by decide⟩
        | 2 => exact ⟨((0, .again), []), by decide, by decide⟩
        | 3 => exact ⟨((0, .go), [.relocked 0, .ret 0 .timeout]), by decide, by decide⟩)
    ⟨_, exec_of_run (r := (_, _)) (ls := [(0, .lockUser)]) rfl⟩ rfl
  have hz : ∀ {t j : Nat} {p : PC}, (st j).ths[t]? = some p → t = 0 := fun {t j p} he => by
    refine Classical.byContradiction fun hne => ?_
    rw [List.getElem?_eq_none (by rw [(h3 j).1]; omega)] at he; cases he
  refine ⟨st, lbl, ev, h1, fun t hr i => ?_, fun t i _ ho => ?_, fun t i hn ho => ?_, fun i => ?_, fun i => h4 2 i, fun i => h4 1 i⟩
  · obtain ⟨j, hj, a, r, _, hst⟩ := hr i
    refine ⟨j, hj, (h3 j).2.1.trans (Eq.symm ?_)⟩
    simp only [step] at hst
    split at hst
    · cases hst
    next p hp => exact hz hp
  · obtain ⟨j, hj, he⟩ := ho i
    obtain rfl := hz he
    exact h4 0 i
  · obtain ⟨j, hj, he⟩ := ho i
    obtain rfl := hz he
    obtain ⟨k, hk, e⟩ := h4 3 i
    exact absurd (.inl ⟨_, e⟩) (hn k hk)
  · obtain ⟨j, hj, e⟩ := h4 0 i
    exact ⟨j, hj, (h3 j).2.2 (by rw [show lbl j = (0, .timeout) from e])⟩

/-- **C120** (the clock has to move): if the clock of the user never reaches the time point, the wait can go on for ever, though its sleeps end after their time, nobody is
passed over and the user's lock is free. -/
theorem C120_stopped_clock : ∃ st lbl ev, Endless step (init 1) st lbl ev ∧ Served step Next st lbl ∧ Timely SleepsClocked TimedOver .timeout st lbl ev ∧
    (Often fun j => (st j).user = none) ∧ ReadsClock (st 0) 0 ∧ (Often fun j => ReadsClock (st j) 0) ∧ ∀ j, ¬ TimedOver 0 (ev j) := by
  obtain ⟨st, lbl, ev, h1, h2, h3, h4⟩ := endless_of_rounds (step := step)
    (good := fun s l es => s.ths.length = 1 ∧ l.1 = 0 ∧ (l.2 = .timeout → s.user = none) ∧ (l.2 = .again → s.ths = [.wClock]) ∧ es = [])
    (P := fun s => s = ⟨none, some 0, [.wClock]⟩)
    (R := fun (b : Bool) l es => if b then l = (0, .timeout) else l = (0, .again))
    (s₀ := init 1) (s := ⟨none, some 0, [.wClock]⟩) true (by
      rintro s rfl
      refine ⟨[((0, .again), []), ((0, .go), []), ((0, .timeout), []), ((0, .go), [])], ?_⟩
      apply Exists.intro
      refine ⟨?_, rfl, fun b => ?_⟩
      · iterate 4 refine ⟨_, by with_unfolding_all rfl, by decide, ?_⟩
        exact rfl
      · cases b
        · exact ⟨((0, .again), []), by decide, by decide⟩
        · exact ⟨((0, .timeout), []), by decide, by decide⟩)
    ⟨_, exec_of_run (r := (_, _)) (ls := [(0, .lockUser), (0, .wait .clocked), (0, .go), (0, .go)]) rfl⟩ rfl
  have hz : ∀ {t j : Nat} {p : PC}, (st j).ths[t]? = some p → t = 0 := fun {t j p} he => by
    refine Classical.byContradiction fun hne => ?_
    rw [List.getElem?_eq_none (by rw [(h3 j).1]; omega)] at he; cases he
  refine ⟨st, lbl, ev, h1, fun t hr i => ?_, fun t i _ ho => ?_, fun i => ?_, by rw [h2]; rfl, fun i => ?_, fun j => ?_⟩
  · obtain ⟨j, hj, a, r, _, hst⟩ := hr i
    refine ⟨j, hj, (h3 j).2.1.trans (Eq.symm ?_)⟩
    simp only [step] at hst
    split at hst
    · cases hst
    next p hp => exact hz hp
  · obtain ⟨j, hj, he⟩ := ho i
    obtain rfl := hz he
    exact h4 true i
  · obtain ⟨j, hj, e⟩ := h4 true i
    exact ⟨j, hj, (h3 j).2.2.1 (by rw [show lbl j = (0, .timeout) from e])⟩
  · obtain ⟨j, hj, e⟩ := h4 false i
    refine ⟨j, hj, ?_⟩
    show (st j).ths[0]? = some .wClock
    rw [(h3 j).2.2.2.1 (by rw [show lbl j = (0, .again) from e])]; rfl
  · rw [(h3 j).2.2.2.2]; simp [TimedOver]

end Verif.CvAny

namespace Verif.CondVarPosix

variable {D : Type}

/-- Thread `t` sleeps in a wait for a time point of a clock of the user. -/
def SleepsClocked (s : St D) (t : Nat) : Prop := ∃ p, s.ths[t]? = some (.asleep .clocked p)

/-- Thread `t` reads the clock of the user. -/
def ReadsClock (s : St D) (t : Nat) : Prop := ∃ p, s.ths[t]? = some (.clock p)

/-- **C120** (`condition_variable` for pthreads): a wait for a time point of a clock of the user ends, notified or not, with a predicate (that may be false all the time) or
without, however often the clock turns out to be late, in every execution without end in which no thread that can take its next step again and again is passed over for ever,
sleeps end after their time, the clock reaches the time point and the mutex is free again and again. -/
theorem C120_clocked_wait (bug : Bool) (n : Nat) (d₀ : D) (st : Nat → St D) (lbl : Nat → Nat × Act D) (ev : Nat → List (Ev D))
    (h : Endless (step bug) (init n d₀) st lbl ev) (hs : Served (step bug) Next st lbl) (htime : Timely SleepsClocked TimedOver .timeout st lbl ev)
    (hclock : Reaches ReadsClock TimedOver .go st lbl ev) (hf : Often fun j => (st j).owner = none) (t i : Nat) (p : Option (D → Bool))
    (hi : .called t .clocked p ∈ ev i) : ∃ j, i < j ∧ TimedOver t (ev j) := by
  have h0 : ∃ p, (st (i + 1)).ths[t]? = some p ∧ p.clocked = true := by
    have hst := h.next i
    generalize lbl i = l at hst
    obtain ⟨u, a⟩ := l
    unfold step at hst
    simp only at hst
    split at hst
    · cases hst
    next pc ht =>
    split at hst <;> (try split at hst) <;> (try split at hst) <;> (try contradiction) <;> (simp only [Option.some.injEq, Prod.mk.injEq] at hst; obtain ⟨e1, e2⟩ := hst; rw [← e2] at hi; simp at hi)
    · obtain ⟨rfl, rfl, _⟩ := hi
      exact ⟨_, by rw [← e1]; exact get_set_self ht, rfl⟩
    · obtain ⟨rfl, rfl, _⟩ := hi
      exact ⟨_, by rw [← e1]; exact get_set_self ht, rfl⟩
  refine Classical.byContradiction fun hn => ?_
  have hall := from_on (p := fun j => ∃ p, (st j).ths[t]? = some p ∧ p.clocked = true) h0 fun j hj ⟨p, hp, hl⟩ => by
    rcases clocked_step (t := (lbl j).1) (a := (lbl j).2) (h.next j) hp hl with h1 | h1
    · exact absurd ⟨j, by omega, h1⟩ hn
    · exact h1
  have hreads : Often fun j => ReadsClock (st j) t := by
    refine fun m => Classical.byContradiction fun hm => ?_
    obtain ⟨j, hj, he⟩ := htime t (max m (i + 1)) (fun j hj he => hn ⟨j, by omega, he⟩) fun m' => by
      obtain ⟨p, hp, hl⟩ := hall (max (max m m') (i + 1)) (by omega)
      obtain ⟨j, hj, h1 | h1 | h1⟩ := clocked_goes h hs hf hp hl
      · exact absurd ⟨j, by omega, h1⟩ hn
      · exact ⟨j, by omega, h1⟩
      · exact absurd ⟨j, by omega, h1⟩ hm
    have hst := h.next j
    rw [he] at hst
    obtain ⟨q, hq⟩ : ∃ q, (st (j + 1)).ths[t]? = some (.wake .clocked q .timeout) := by
      obtain ⟨p, hp, hl⟩ := hall j (by omega)
      simp only [step, hp] at hst
      cases p <;> simp at hst
      rename_i k q
      cases k <;> simp [PC.clocked] at hl
      exact ⟨_, by rw [← hst.2.1]; exact get_set_self hp⟩
    obtain ⟨l, hl, r⟩ := timed_out_reads h hs hf hq
    exact hm ⟨l, by omega, _, r⟩
  obtain ⟨j, hj, ⟨p, hp⟩, he⟩ := hclock t (i + 1) (fun j hj he => hn ⟨j, by omega, he⟩) hreads
  have hst := h.next j
  rw [he] at hst
  cases p <;> simp [step, hp] at hst
  · exact hn ⟨j, by omega, .inl ⟨false, by rw [← hst.2]; simp⟩⟩
  · obtain ⟨l, hl, r⟩ := last_over h hs (i := j + 1) (t := t) (by rw [← hst.1]; exact get_set_self hp)
    exact hn ⟨l, by omega, r⟩

/-- The hypotheses can be met: a thread waits again and again for what never comes true, and each time the clock has not reached the time point when it is read first. -/
example : ∃ st lbl ev, Endless (step false) (init 1 (0 : Nat)) st lbl ev ∧ Served (step false) Next st lbl ∧ Timely SleepsClocked TimedOver .timeout st lbl ev ∧
    Reaches ReadsClock TimedOver .go st lbl ev ∧ (Often fun j => (st j).owner = none) ∧ (Often fun j => lbl j = (0, .early)) ∧
    Often fun j => ∃ p, .called 0 .clocked (some p) ∈ ev j ∧ ∀ d, p d = false := by
  let p : Nat → Bool := fun _ => false
  obtain ⟨st, lbl, ev, h1, _, h3, h4⟩ := endless_of_rounds (step := step false)
    (good := fun s l _ => s.ths.length = 1 ∧ l.1 = 0 ∧ (l.2 = .timeout → s.owner = none))
    (P := fun s => s = ⟨some 0, 0, [.idle]⟩)
    (R := fun (b : Fin 4) l es => match b with | 0 => l = (0, .timeout) | 1 => .called 0 .clocked (some p) ∈ es | 2 => l = (0, .early) | 3 => .ret 0 false ∈ es)
    (s₀ := init 1 (0 : Nat)) (s := ⟨some 0, 0, [.idle]⟩) 0 (by
      rintro s rfl
      refine ⟨[((0, .wait .clocked (some p)), [.called 0 .clocked (some p)]), ((0, .go), []), ((0, .early), []), ((0, .go), [.slept 0]), ((0, .timeout), []),
        ((0, .go), [.relocked 0]), ((0, .go), [.expired 0]), ((0, .go), [.ret 0 false])], ?_⟩
      apply Exists.intro
      refine ⟨?_, rfl, fun b => ?_⟩
      · iterate 4 refine ⟨_, by with_unfolding_all rfl, ⟨rfl, rfl, nofun⟩, ?_⟩
        refine ⟨_, by with_unfolding_all rfl, ⟨rfl, rfl, fun _ => rfl⟩, ?_⟩
        iterate 3 refine ⟨_, by with_unfolding_all rfl, ⟨rfl, rfl, nofun⟩, ?_⟩
        exact rfl
      · match b with
        | 0 => exact ⟨((0, .timeout), []), by simp, by simp⟩
        | 1 => exact ⟨((0, .wait .clocked (some p)), [.called 0 .clocked (some p)]), by simp, by simp⟩
        | 2 => exact ⟨((0, .early), []), by simp, by simp⟩
        | 3 => exact ⟨((0, .go), [.ret 0 false]), by simp, by simp⟩)
    ⟨_, exec_of_run (r := (_, _)) (ls := [(0, .lock)]) rfl⟩ rfl
  have hz : ∀ {t j : Nat} {p : PC Nat}, (st j).ths[t]? = some p → t = 0 := fun {t j p} he => by
    refine Classical.byContradiction fun hne => ?_
    rw [List.getElem?_eq_none (by rw [(h3 j).1]; omega)] at he; cases he
  refine ⟨st, lbl, ev, h1, fun t hr i => ?_, fun t i _ ho => ?_, fun t i hn ho => ?_, fun i => ?_, fun i => h4 2 i, fun i => ?_⟩
  · obtain ⟨j, hj, a, r, _, hst⟩ := hr i
    refine ⟨j, hj, (h3 j).2.1.trans (Eq.symm ?_)⟩
    simp only [step] at hst
    split at hst
    · cases hst
    next p hp => exact hz hp
  · obtain ⟨j, hj, q, he⟩ := ho i
    obtain rfl := hz he
    exact h4 0 i
  · obtain ⟨j, hj, q, he⟩ := ho i
    obtain rfl := hz he
    obtain ⟨k, hk, e⟩ := h4 3 i
    exact absurd (.inl ⟨_, e⟩) (hn k hk)
  · obtain ⟨j, hj, e⟩ := h4 0 i
    exact ⟨j, hj, (h3 j).2.2 (by rw [show lbl j = (0, .timeout) from e])⟩
  · obtain ⟨j, hj, e⟩ := h4 1 i
    exact ⟨j, hj, p, e, fun _ => rfl⟩

/-- **C120** (the clock has to move): if the clock of the user never reaches the time point, the wait can go on for ever, though its sleeps end after their time, nobody is
passed over and the mutex is free again and again. -/
theorem C120_stopped_clock (bug : Bool) (d : D) : ∃ st lbl ev, Endless (step bug) (init 1 d) st lbl ev ∧ Served (step bug) Next st lbl ∧
    Timely SleepsClocked TimedOver .timeout st lbl ev ∧ (Often fun j => (st j).owner = none) ∧ ReadsClock (st 0) 0 ∧ (Often fun j => ReadsClock (st j) 0) ∧
    ∀ j, ¬ TimedOver 0 (ev j) := by
  obtain ⟨st, lbl, ev, h1, h2, h3, h4⟩ := endless_of_rounds (step := step bug)
    (good := fun s l es => s.ths.length = 1 ∧ l.1 = 0 ∧ (l.2 = .timeout → s.owner = none) ∧ (l.2 = .early → s.ths = [.clock none]) ∧ ¬ TimedOver 0 es)
    (P := fun s => s = ⟨some 0, d, [.clock none]⟩)
    (R := fun (b : Bool) l es => if b then l = (0, .timeout) else l = (0, .early))
    (s₀ := init 1 d) (s := ⟨some 0, d, [.clock none]⟩) true (by
      rintro s rfl
      refine ⟨[((0, .early), []), ((0, .go), [.slept 0]), ((0, .timeout), []), ((0, .go), [.relocked 0])], ?_⟩
      apply Exists.intro
      refine ⟨?_, rfl, fun b => ?_⟩
      · refine ⟨_, by with_unfolding_all rfl, ⟨rfl, rfl, nofun, fun _ => rfl, by simp [TimedOver]⟩, ?_⟩
        refine ⟨_, by with_unfolding_all rfl, ⟨rfl, rfl, nofun, nofun, by simp [TimedOver]⟩, ?_⟩
        refine ⟨_, by with_unfolding_all rfl, ⟨rfl, rfl, fun _ => rfl, nofun, by simp [TimedOver]⟩, ?_⟩
        refine ⟨_, by with_unfolding_all rfl, ⟨rfl, rfl, nofun, nofun, by simp [TimedOver]⟩, ?_⟩
        exact rfl
      · cases b
        · exact ⟨((0, .early), []), by simp, by simp⟩
        · exact ⟨((0, .timeout), []), by simp, by simp⟩)
    ⟨_, exec_of_run (r := (_, _)) (ls := [(0, .lock), (0, .wait .clocked none)]) rfl⟩ rfl
  have hz : ∀ {t j : Nat} {p : PC D}, (st j).ths[t]? = some p → t = 0 := fun {t j p} he => by
    refine Classical.byContradiction fun hne => ?_
    rw [List.getElem?_eq_none (by rw [(h3 j).1]; omega)] at he; cases he
  refine ⟨st, lbl, ev, h1, fun t hr i => ?_, fun t i _ ho => ?_, fun i => ?_, ⟨none, by rw [h2]; rfl⟩, fun i => ?_, fun j => ?_⟩
  · obtain ⟨j, hj, a, r, _, hst⟩ := hr i
    refine ⟨j, hj, (h3 j).2.1.trans (Eq.symm ?_)⟩
    simp only [step] at hst
    split at hst
    · cases hst
    next p hp => exact hz hp
  · obtain ⟨j, hj, q, he⟩ := ho i
    obtain rfl := hz he
    exact h4 true i
  · obtain ⟨j, hj, e⟩ := h4 true i
    exact ⟨j, hj, (h3 j).2.2.1 (by rw [show lbl j = (0, .timeout) from e])⟩
  · obtain ⟨j, hj, e⟩ := h4 false i
    exact ⟨j, hj, none, by rw [(h3 j).2.2.2.1 (by rw [show lbl j = (0, .early) from e])]; rfl⟩
  · exact (h3 j).2.2.2.2

end Verif.CondVarPosix
