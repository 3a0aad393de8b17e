import Verif.Proof.NotifiedAny
import Verif.Props.CvAny

/-!
# Notified waits come back (C115)
-/

namespace Verif.CvAny

open Verif.Spec.Endless

/-- **C115** (`condition_variable_any`).  Every call of `notify_one` and `notify_all` in progress ends, in every execution without end in which no thread that can take
its next step again and again is passed over for ever. -/
theorem C115_notify_returns (n : Nat) (st : Nat → St) (lbl : Nat → Nat × Act) (ev : Nat → List Ev) (h : Endless step (init n) st lbl ev)
    (hs : Served step Next st lbl) (t i : Nat) (all : Bool) (hi : .notifying t all ∈ ev i) :
    ∃ j, i ≤ j ∧ ((∃ ws, .notified t all ws ∈ ev j) ∧ (∃ k, j ≤ k ∧ .notifyRet t true ∈ ev k) ∨ .notifyRet t false ∈ ev j) := by
  have h0 : (st (i + 1)).ths[t]? = some (.nLock all) := by
    have hst := h.next i
    generalize lbl i = l at hst
    obtain ⟨u, a⟩ := l
    unfold step at hst
    simp only at hst
    split at hst
    · cases hst
    next pc ht =>
    have hlt := (List.getElem?_eq_some_iff.mp ht).1
    split at hst <;> (try split at hst) <;> (try contradiction) <;> (simp only [Option.some.injEq, Prod.mk.injEq] at hst; obtain ⟨e1, e2⟩ := hst; rw [← e2] at hi; simp at hi)
    obtain ⟨rfl, rfl⟩ := hi
    rw [← e1]; exact List.getElem?_set_self hlt
  obtain ⟨j, hj, he | ⟨ws, he, hp⟩⟩ := notify_acts h hs h0
  · exact ⟨j, by omega, .inr he⟩
  · refine ⟨j, by omega, .inl ⟨⟨ws, he⟩, ?_⟩⟩
    obtain ⟨k, hk, hp, hl⟩ := takes h hs hp rfl fun m => ⟨m, Nat.le_refl _, fun hp => ⟨.go, _, .inl rfl, by simp only [step, hp]; rfl⟩⟩
    have hst := h.next k
    rw [show lbl k = (t, (lbl k).2) by rw [← hl]] at hst
    generalize (lbl k).2 = a at hst
    simp only [step, hp] at hst
    cases a <;> simp at hst
    exact ⟨k, by omega, by rw [← hst.2]; simp⟩

/-- **C115** (`condition_variable_any`).  A thread that a notification wakes returns from its wait and reports the notification (or throws because the user's lock cannot be
locked again), in every execution without end in which no thread that can take its next step again and again is passed over for ever and the user's lock is free again
and again. -/
theorem C115_woken_returns (n : Nat) (st : Nat → St) (lbl : Nat → Nat × Act) (ev : Nat → List Ev) (h : Endless step (init n) st lbl ev)
    (hs : Served step Next st lbl) (hf : Often fun j => (st j).user = none) (t u i : Nat) (all : Bool) (ws : List Nat)
    (hi : .notified t all ws ∈ ev i) (hu : u ∈ ws) : ∃ j, i < j ∧ (.ret u .ok ∈ ev j ∨ .ret u .relockThrew ∈ ev j) := by
  obtain ⟨tr, hx⟩ := h.reachable i
  obtain ⟨_, ht, hcase⟩ := step_notified (h.next i) hi
  have hw : ∃ k, (st (i + 1)).ths[u]? = some (.wake k .ok) := by
    rcases hcase with ⟨_, rfl, e⟩ | ⟨_, rfl, _⟩ | ⟨v, k, _, rfl, hv, e⟩
    · obtain ⟨k, hk⟩ := ((C39_wakes_sleepers n tr _ _ hx _ _ (h.next i) t all _ hi).2.1 u hu).2.1
      have hne : t ≠ u := by rintro rfl; rw [ht] at hk; cases hk
      exact ⟨k, by rw [e, get_set_ne hne, List.getElem?_map, hk]; rfl⟩
    · cases hu
    · cases List.mem_singleton.mp hu
      have hne : t ≠ u := by rintro rfl; rw [ht] at hv; cases hv
      exact ⟨k, by rw [e, get_set_ne hne]; exact List.getElem?_set_self (List.getElem?_eq_some_iff.mp hv).1⟩
  obtain ⟨k, hk⟩ := hw
  obtain ⟨j, hj, he | ⟨_, he⟩ | ⟨he, _⟩⟩ := woken_ends h hs hf hk (by rintro ⟨_, h⟩; cases h)
  · exact ⟨j, by omega, .inl he⟩
  · exact ⟨j, by omega, .inr he⟩
  · cases he

private theorem ends_of {u : Nat} {r : Res} {es : List Ev} (he : .ret u r ∈ es ∨ (r ≠ .threw ∧ .ret u .relockThrew ∈ es) ∨ (r = .threw ∧ .terminated u ∈ es)) :
    (∃ r, .ret u r ∈ es) ∨ .terminated u ∈ es := by
  rcases he with he | ⟨_, he⟩ | ⟨_, he⟩
  · exact .inl ⟨_, he⟩
  · exact .inl ⟨_, he⟩
  · exact .inr he

/-- **C115** (`condition_variable_any`), for waits without a clock of the user: when `notify_all` takes effect, every wait that has released the user's lock by then ends, in
every execution without end in which no thread that can take its next step again and again is passed over for ever and the user's lock is free again and again.
Missing: the same for time points of a clock of the user, which is false, see `C115_notify_all_refuted`. -/
theorem C115_notify_all_partial (n : Nat) (st : Nat → St) (lbl : Nat → Nat × Act) (ev : Nat → List Ev) (h : Endless step (init n) st lbl ev)
    (hs : Served step Next st lbl) (hf : Often fun j => (st j).user = none) (t u i : Nat) (ws : List Nat) (tr : List Ev)
    (hx : Exec step (init n) tr (st i)) (hk : NoUserClock tr) (hi : .notified t true ws ∈ ev i) (hu : hasReleased u tr = true) :
    ∃ j, i < j ∧ ((∃ r, .ret u r ∈ ev j) ∨ .terminated u ∈ ev j) := by
  have hc := C39_wakes_sleepers n tr _ _ hx _ _ (h.next i) t true ws hi
  obtain ⟨_, ht, _⟩ := step_notified (h.next i) hi
  have hl : ∀ p, (st i).ths[u]? = some p → p.isBlocked = false → p.holdsInt = false → (st (i + 1)).ths[u]? = some p := by
    intro p hp hb hh
    have hst := h.next i
    generalize lbl i = l at hst
    obtain ⟨v, a⟩ := l
    by_cases hv : u = v
    · subst hv
      exfalso
      unfold step at hst
      simp only [hp] at hst
      split at hst <;> (try split at hst) <;> (try contradiction) <;>
        (simp only [Option.some.injEq, Prod.mk.injEq] at hst; obtain ⟨e1, e2⟩ := hst; rw [← e2] at hi; simp at hi) <;> exact Bool.noConfusion hh
    · exact step_other hst hv hp hb
  rcases hc.1 u hu with ha | ⟨k, r, ha⟩ | ⟨r, ha⟩
  · obtain ⟨j, hj, he⟩ := C115_woken_returns n st lbl ev h hs hf t u i true ws hi (hc.2.2.2 rfl u ha)
    exact ⟨j, hj, .inl (by rcases he with he | he <;> exact ⟨_, he⟩)⟩
  · have hk' : k ≠ .clocked := by simpa [PC.noClk] using (past_exec hx hk).1 u _ ha
    obtain ⟨j, hj, he⟩ := woken_ends h hs hf (hl _ ha rfl rfl) fun hc => hk' hc.1
    exact ⟨j, by omega, ends_of he⟩
  · obtain ⟨j, hj, he⟩ := exit_ends h hs hf (hl _ ha rfl rfl)
    exact ⟨j, by omega, ends_of he⟩

/-- **C115** is false for waits until a time point of a clock of the user: `notify_all` takes effect again and again, and each time the wait, which has released the user's
lock, has been woken by the system to look at that clock; the clock stands still, so it goes to sleep again.  The user's lock is free all the time and nobody is passed
over. -/
theorem C115_notify_all_refuted : ∃ tr st lbl ev, Exec step (init 2) tr (st 0) ∧ hasReleased 0 tr = true ∧ Endless step (init 2) st lbl ev ∧ Served step Next st lbl ∧
    (∀ j, (st j).user = none) ∧ (Often fun j => ∃ ws, .notified 1 true ws ∈ ev j) ∧ ∀ j, (∀ r, .ret 0 r ∉ ev j) ∧ .terminated 0 ∉ ev j := by
  have hrun := exec_of_run (step := step) (s := init 2) (r := (_, _)) (ls := [(0, .lockUser), (0, .wait .clocked), (0, .go), (0, .go), (0, .again), (0, .go), (0, .timeout),
    (1, .notify true), (1, .go)]) rfl
  obtain ⟨st, lbl, ev, h, h0, hg, hR⟩ : ∃ st lbl ev, Endless step (init 2) st lbl ev ∧ st 0 = ⟨none, some 1, [.wake .clocked .timeout, .nSignal true]⟩ ∧
      (∀ i, ((st i).ths.length = 2 ∧ (st i).user = none) ∧ (∀ r, .ret 0 r ∉ ev i) ∧ .terminated 0 ∉ ev i) ∧
      ∀ k : Bool, Often fun i => if k then (lbl i).1 = 1 ∧ .notified 1 true [] ∈ ev i else (lbl i).1 = 0 := by
    refine endless_of_rounds (κ := Bool) (step := step) (P := fun s => s = ⟨none, some 1, [.wake .clocked .timeout, .nSignal true]⟩)
      (good := fun s _ es => (s.ths.length = 2 ∧ s.user = none) ∧ (∀ r, .ret 0 r ∉ es) ∧ .terminated 0 ∉ es)
      (R := fun k l es => if k then l.1 = 1 ∧ .notified 1 true [] ∈ es else l.1 = 0) true ?_ (s₀ := init 2) ⟨_, hrun⟩ rfl
    rintro s rfl
    refine ⟨[((1, .go), [.notified 1 true []]), ((1, .go), [.notifyRet 1 true]), ((0, .go), []), ((0, .again), []), ((0, .go), []), ((0, .timeout), []),
      ((1, .notify true), [.notifying 1 true]), ((1, .go), [])], ⟨none, some 1, [.wake .clocked .timeout, .nSignal true]⟩, ?_, rfl, fun b => by cases b <;> simp⟩
    exact ⟨⟨none, some 1, [.wake .clocked .timeout, .nUnlock]⟩, rfl, ⟨⟨rfl, rfl⟩, by simp, by simp⟩,
      ⟨none, none, [.wake .clocked .timeout, .idle]⟩, rfl, ⟨⟨rfl, rfl⟩, by simp, by simp⟩,
      ⟨none, some 0, [.wClock, .idle]⟩, rfl, ⟨⟨rfl, rfl⟩, by simp, by simp⟩,
      ⟨none, some 0, [.wBlock .clocked, .idle]⟩, rfl, ⟨⟨rfl, rfl⟩, by simp, by simp⟩,
      ⟨none, none, [.blocked .clocked, .idle]⟩, rfl, ⟨⟨rfl, rfl⟩, by simp, by simp⟩,
      ⟨none, none, [.wake .clocked .timeout, .idle]⟩, rfl, ⟨⟨rfl, rfl⟩, by simp, by simp⟩,
      ⟨none, none, [.wake .clocked .timeout, .nLock true]⟩, rfl, ⟨⟨rfl, rfl⟩, by simp, by simp⟩,
      ⟨none, some 1, [.wake .clocked .timeout, .nSignal true]⟩, rfl, ⟨⟨rfl, rfl⟩, by simp, by simp⟩, rfl⟩
  refine ⟨_, st, lbl, ev, h0 ▸ hrun, rfl, h, ?_, fun j => (hg j).1.2, fun i => ?_, fun j => (hg j).2⟩
  · intro t hr i
    match t with
    | 0 => exact hR false i
    | 1 => obtain ⟨j, hj, e⟩ := hR true i; exact ⟨j, hj, e.1⟩
    | t + 2 =>
      obtain ⟨j, _, a, r, _, hst⟩ := hr 0
      have : (st j).ths[t + 2]? = none := List.getElem?_eq_none (by rw [(hg j).1.1]; omega)
      simp [step, this] at hst
  · obtain ⟨j, hj, e⟩ := hR true i; exact ⟨j, hj, [], e.2⟩

/-- The hypotheses of the three theorems above can be met: `notify_all` is about to take effect while one thread sleeps; afterwards both go on with the same again and again. -/
example : ∃ tr st lbl ev, Exec step (init 2) tr (st 0) ∧ NoUserClock tr ∧ hasReleased 0 tr = true ∧ Endless step (init 2) st lbl ev ∧ Served step Next st lbl ∧
    (Often fun j => (st j).user = none) ∧ .notified 1 true [0] ∈ ev 0 ∧ Often fun j => .notifying 1 true ∈ ev j := by
  have hrun := exec_of_run (step := step) (s := init 2) (r := (_, _)) (ls := [(0, .lockUser), (0, .wait .timed), (0, .go), (0, .go), (0, .go),
    (1, .notify true), (1, .go)]) rfl
  obtain ⟨st, lbl, ev, h, h0, hg, hR⟩ : ∃ st lbl ev, Endless step (init 2) st lbl ev ∧ st 0 = ⟨none, some 1, [.blocked .timed, .nSignal true]⟩ ∧
      (∀ i, (st i).ths.length = 2 ∧ (st i = ⟨none, some 1, [.blocked .timed, .nSignal true]⟩ → .notified 1 true [0] ∈ ev i) ∧ (.relocked 0 ∈ ev i → (st i).user = none)) ∧
      ∀ k : Bool, Often fun i => if k then (lbl i).1 = 1 ∧ .notifying 1 true ∈ ev i else (lbl i).1 = 0 ∧ .relocked 0 ∈ ev i := by
    refine endless_of_rounds (κ := Bool) (step := step) (P := fun s => s = ⟨none, some 1, [.blocked .timed, .nSignal true]⟩)
      (good := fun s _ es => s.ths.length = 2 ∧ (s = ⟨none, some 1, [.blocked .timed, .nSignal true]⟩ → .notified 1 true [0] ∈ es) ∧ (.relocked 0 ∈ es → s.user = none))
      (R := fun k l es => if k then l.1 = 1 ∧ .notifying 1 true ∈ es else l.1 = 0 ∧ .relocked 0 ∈ es) true ?_ (s₀ := init 2) ⟨_, hrun⟩ rfl
    rintro s rfl
    refine ⟨[((1, .go), [.notified 1 true [0]]), ((1, .go), [.notifyRet 1 true]), ((0, .go), []), ((0, .go), []), ((0, .go), [.relocked 0, .ret 0 .ok]),
      ((0, .wait .timed), [.called 0 .timed]), ((0, .go), []), ((0, .go), [.released 0]), ((0, .go), []), ((1, .notify true), [.notifying 1 true]), ((1, .go), [])],
      ⟨none, some 1, [.blocked .timed, .nSignal true]⟩, ?_, rfl, fun b => by cases b <;> simp⟩
    exact ⟨⟨none, some 1, [.wake .timed .ok, .nUnlock]⟩, rfl, ⟨rfl, fun _ => by simp, by simp⟩,
      ⟨none, none, [.wake .timed .ok, .idle]⟩, rfl, ⟨rfl, nofun, by simp⟩,
      ⟨none, some 0, [.wExit .ok, .idle]⟩, rfl, ⟨rfl, nofun, by simp⟩,
      ⟨none, none, [.wRelock .ok, .idle]⟩, rfl, ⟨rfl, nofun, by simp⟩,
      ⟨some 0, none, [.idle, .idle]⟩, rfl, ⟨rfl, nofun, fun _ => rfl⟩,
      ⟨some 0, none, [.wLock .timed, .idle]⟩, rfl, ⟨rfl, nofun, by simp⟩,
      ⟨some 0, some 0, [.wRelease .timed, .idle]⟩, rfl, ⟨rfl, nofun, by simp⟩,
      ⟨none, some 0, [.wBlock .timed, .idle]⟩, rfl, ⟨rfl, nofun, by simp⟩,
      ⟨none, none, [.blocked .timed, .idle]⟩, rfl, ⟨rfl, nofun, by simp⟩,
      ⟨none, none, [.blocked .timed, .nLock true]⟩, rfl, ⟨rfl, nofun, by simp⟩,
      ⟨none, some 1, [.blocked .timed, .nSignal true]⟩, rfl, ⟨rfl, nofun, by simp⟩, rfl⟩
  refine ⟨_, st, lbl, ev, h0 ▸ hrun, by unfold NoUserClock; simp, rfl, h, ?_, fun i => ?_, (hg 0).2.1 h0, fun i => ?_⟩
  · intro t hr i
    match t with
    | 0 => obtain ⟨j, hj, e⟩ := hR false i; exact ⟨j, hj, e.1⟩
    | 1 => obtain ⟨j, hj, e⟩ := hR true i; exact ⟨j, hj, e.1⟩
    | t + 2 =>
      obtain ⟨j, _, a, r, _, hst⟩ := hr 0
      have : (st j).ths[t + 2]? = none := List.getElem?_eq_none (by rw [(hg j).1]; omega)
      simp [step, this] at hst
  · obtain ⟨j, hj, e⟩ := hR false i; exact ⟨j, hj, (hg j).2.2 e.2⟩
  · obtain ⟨j, hj, e⟩ := hR true i; exact ⟨j, hj, e.2⟩

end Verif.CvAny
