import Verif.Proof.StarvationSem

/-!
# `auto_reset_event` over a semaphore: nobody is passed over for ever (C114)
-/

namespace Verif.AutoSem

open Verif.Atomic (Kind Op Ev One)
open Verif.Spec.Endless

/-- **C114** (`auto_reset_event` over a semaphore), what holds: every `wait()` in progress returns or throws if `post()` returns again and again, in every
execution without end in which no thread that can take its next step again and again is passed over for ever (the semaphore does not prefer others for ever),
whatever else happens: other waits, time-outs, failures and exceptions.  Missing: the same for a semaphore that passes over a thread for ever, which is false,
see `C114_event_refuted`. -/
theorem C114_event_partial (n : Nat) (st : Nat → St) (lbl : Nat → Nat × Act) (ev : Nat → List (Ev One))
    (h : Endless step (init n) st lbl ev) (hs : Served step Next st lbl) (t i : Nat) (hi : InWait t (st i))
    (hp : Often fun j => ∃ u, .ret u (.sig .post) true ∈ ev j) : ∃ j, i ≤ j ∧ WaitEnds t (ev j) := by
  rcases wait_cases h hs.scheduled hi with hd | ⟨m, _, hw, hno⟩
  · exact hd
  · have hf := permits h hs.scheduled hp
    obtain ⟨j, hj, hl⟩ := hs t (fun a => by
      obtain ⟨j, hj, h0⟩ := hf (max a m)
      exact ⟨j, by omega, ready_wSem (hw j (by omega)) h0⟩) m
    exact absurd hl (hno j hj)

/-- **C114** (`auto_reset_event` over a semaphore), what holds for every semaphore: `wait()` returns or throws if `post()` returns again and again and the waits of
other threads succeed only finitely often, in every execution without end in which the scheduler does not forget a thread.  Missing: the same without the last
condition, which is false. -/
theorem C114_event_calm_partial (n : Nat) (st : Nat → St) (lbl : Nat → Nat × Act) (ev : Nat → List (Ev One))
    (h : Endless step (init n) st lbl ev) (hs : Scheduled step Next st lbl) (t i : Nat) (hi : InWait t (st i))
    (hp : Often fun j => ∃ u, .ret u (.sig .post) true ∈ ev j)
    (hno : ¬ Often fun j => ∃ u k, u ≠ t ∧ .ret u (.acq k) true ∈ ev j) : ∃ j, i ≤ j ∧ WaitEnds t (ev j) := by
  rcases wait_cases h hs hi with hd | ⟨m, _, hw, hnt⟩
  · exact hd
  · obtain ⟨q, hq⟩ := not_often hno
    obtain ⟨p, hp0, hpos⟩ := permits h hs hp (max m q)
    have hlast : ∀ j, p ≤ j → 0 < (st j).sem := by
      refine from_on (p := fun j => 0 < (st j).sem) hpos fun j hj h0 => ?_
      have hst := h.next j
      rw [show lbl j = ((lbl j).1, (lbl j).2) from rfl] at hst
      rcases sem_step hst with hle | ⟨k, hk⟩
      · exact Nat.lt_of_lt_of_le h0 hle
      · obtain ⟨j', hj', hu, hl⟩ := takes h hs hk (fun s hs => ⟨_, by unfold step; simp only [hs]; rfl⟩)
        have hst' := h.next j'
        rw [show lbl j' = ((lbl j).1, (lbl j').2) by rw [← hl]] at hst'
        generalize (lbl j').2 = a at hst'
        unfold step at hst'
        simp only [hu] at hst'
        cases a <;> simp at hst'
        exact absurd ⟨_, k, hnt j (by omega), by rw [← hst'.2]; simp⟩ (hq j' (by omega))
    obtain ⟨j, hj, hr | hr⟩ := hs t p
    · exact absurd hr (hnt j (by omega))
    · exact absurd (ready_wSem (hw j (by omega)) (hlast j hj)) hr

/-- **C114** (`auto_reset_event` over a semaphore): that the scheduler does not forget the thread is not enough.  `post()` returns again and again, and the waits of
another thread take the permit before the thread that has waited all the time. -/
theorem C114_event_refuted : ∃ st lbl ev, Endless step (init 2) st lbl ev ∧ Scheduled step Next st lbl ∧ InWait 1 (st 0) ∧
    (∀ j, ¬ WaitEnds 1 (ev j)) ∧ (Often fun j => .ret 0 (.sig .post) true ∈ ev j) ∧ Often fun j => .ret 0 (.acq .wait) true ∈ ev j := by
  obtain ⟨st, lbl, ev, h, h0, hg, hR⟩ : ∃ st lbl ev, Endless step (init 2) st lbl ev ∧ st 0 = ⟨1, 0, [.idle, .wSem .wait]⟩ ∧
      (∀ i, ((st i).ths.length = 2 ∧ (lbl i).1 = 0 ∧ (st i).ths[1]? = some (.wSem .wait)) ∧ ¬ WaitEnds 1 (ev i) ∧
        (Ev.ret 0 (.acq .wait) true ∈ ev i → (st i).sem = 0)) ∧
      ∀ b : Bool, Often fun i => (if b then Ev.ret 0 (.sig .post) true else Ev.ret 0 (.acq .wait) true) ∈ ev i := by
    refine endless_of_rounds (κ := Bool) (step := step) (P := fun s => s = ⟨1, 0, [.idle, .wSem .wait]⟩)
      (good := fun s l es => (s.ths.length = 2 ∧ l.1 = 0 ∧ s.ths[1]? = some (.wSem .wait)) ∧ ¬ WaitEnds 1 es ∧
        (Ev.ret 0 (.acq .wait) true ∈ es → s.sem = 0)) (R := fun b _ es => (if b then Ev.ret 0 (.sig .post) true else Ev.ret 0 (.acq .wait) true) ∈ es) true
      ?_ (s₀ := init 2) (s := ⟨1, 0, [.idle, .wSem .wait]⟩) ⟨_, exec_of_run (r := (_, _)) (ls := [(1, .call (.acq .wait)), (1, .go)]) rfl⟩ rfl
    rintro s rfl
    refine ⟨[((0, .call (.sig .post)), [.called 0 (.sig .post)]), ((0, .go), []), ((0, .go), []), ((0, .go), []), ((0, .go), [.ret 0 (.sig .post) true]),
      ((0, .call (.acq .wait)), [.called 0 (.acq .wait)]), ((0, .go), []), ((0, .go), []), ((0, .go), [.ret 0 (.acq .wait) true])],
      ⟨1, 0, [.idle, .wSem .wait]⟩, ?_, rfl, fun b => by cases b <;> simp⟩
    have w : ∀ {es : List (Ev One)}, (∀ e ∈ es, e.thread = 0) → ¬ WaitEnds 1 es := by
      rintro es he (hb | hb) <;> exact absurd (he _ hb) (by decide)
    exact ⟨⟨1, 0, [.pLoad, .wSem .wait]⟩, rfl, ⟨⟨rfl, rfl, rfl⟩, w (by decide), fun _ => rfl⟩,
      ⟨1, 0, [.pCas 1, .wSem .wait]⟩, rfl, ⟨⟨rfl, rfl, rfl⟩, w (by decide), fun _ => rfl⟩,
      ⟨0, 0, [.pSem, .wSem .wait]⟩, rfl, ⟨⟨rfl, rfl, rfl⟩, w (by decide), fun _ => rfl⟩,
      ⟨0, 1, [.leave (.sig .post) true, .wSem .wait]⟩, rfl, ⟨⟨rfl, rfl, rfl⟩, w (by decide), fun _ => rfl⟩,
      ⟨0, 1, [.idle, .wSem .wait]⟩, rfl, ⟨⟨rfl, rfl, rfl⟩, w (by decide), fun h => by simp at h⟩,
      ⟨0, 1, [.wAdd .wait, .wSem .wait]⟩, rfl, ⟨⟨rfl, rfl, rfl⟩, w (by decide), fun h => by simp at h⟩,
      ⟨1, 1, [.wSem .wait, .wSem .wait]⟩, rfl, ⟨⟨rfl, rfl, rfl⟩, w (by decide), fun h => by simp at h⟩,
      ⟨1, 0, [.leave (.acq .wait) true, .wSem .wait]⟩, rfl, ⟨⟨rfl, rfl, rfl⟩, w (by decide), fun h => by simp at h⟩,
      ⟨1, 0, [.idle, .wSem .wait]⟩, rfl, ⟨⟨rfl, rfl, rfl⟩, w (by decide), fun _ => rfl⟩, rfl⟩
  refine ⟨st, lbl, ev, h, ?_, .inr (.inl (by rw [h0]; rfl)), fun j => (hg j).2.1, hR true, hR false⟩
  intro t i
  match t with
  | 0 => exact ⟨i, Nat.le_refl _, .inl (hg i).1.2.1⟩
  | 1 =>
    obtain ⟨j, hj, hr⟩ := hR false i
    refine ⟨j, hj, .inr ?_⟩
    rintro ⟨a, r, rfl, hst⟩
    unfold step at hst
    simp [(hg j).1.2.2, (hg j).2.2 hr] at hst
  | t + 2 =>
    refine ⟨i, Nat.le_refl _, .inr ?_⟩
    rintro ⟨a, r, rfl, hst⟩
    have : (st i).ths[t + 2]? = none := List.getElem?_eq_none (by rw [(hg i).1.1]; omega)
    simp [step, this] at hst

/-- The hypotheses of the two theorems above can be met: two threads wait and post in turn, and the wait of the first one is in progress. -/
example : ∃ st lbl ev, Endless step (init 2) st lbl ev ∧ Served step Next st lbl ∧ Scheduled step Next st lbl ∧ InWait 1 (st 0) ∧
    (Often fun j => ∃ u, .ret u (.sig .post) true ∈ ev j) ∧ ¬ Often fun j => ∃ u k, u ≠ 1 ∧ .ret u (.acq k) true ∈ ev j := by
  obtain ⟨st, lbl, ev, h, h0, hg, hR⟩ : ∃ st lbl ev, Endless step (init 2) st lbl ev ∧ st 0 = ⟨1, 0, [.idle, .wSem .wait]⟩ ∧
      (∀ i, (st i).ths.length = 2 ∧ ∀ u k, u ≠ 1 → Ev.ret u (.acq k) true ∉ ev i) ∧
      ∀ b : Bool, Often fun i => if b then Ev.ret 0 (.sig .post) true ∈ ev i ∧ (lbl i).1 = 0 else (lbl i).1 = 1 := by
    refine endless_of_rounds (κ := Bool) (step := step) (P := fun s => s = ⟨1, 0, [.idle, .wSem .wait]⟩)
      (good := fun s _ es => s.ths.length = 2 ∧ ∀ u k, u ≠ 1 → Ev.ret u (.acq k) true ∉ es)
      (R := fun b l es => if b then Ev.ret 0 (.sig .post) true ∈ es ∧ l.1 = 0 else l.1 = 1) true
      ?_ (s₀ := init 2) (s := ⟨1, 0, [.idle, .wSem .wait]⟩) ⟨_, exec_of_run (r := (_, _)) (ls := [(1, .call (.acq .wait)), (1, .go)]) rfl⟩ rfl
    rintro s rfl
    refine ⟨[((0, .call (.sig .post)), [.called 0 (.sig .post)]), ((0, .go), []), ((0, .go), []), ((0, .go), []), ((0, .go), [.ret 0 (.sig .post) true]),
      ((1, .go), []), ((1, .go), [.ret 1 (.acq .wait) true]), ((1, .call (.acq .wait)), [.called 1 (.acq .wait)]), ((1, .go), [])],
      ⟨1, 0, [.idle, .wSem .wait]⟩, ?_, rfl, fun b => by cases b <;> simp⟩
    exact ⟨⟨1, 0, [.pLoad, .wSem .wait]⟩, rfl, ⟨rfl, fun u k hu => by simp⟩, ⟨1, 0, [.pCas 1, .wSem .wait]⟩, rfl, ⟨rfl, fun u k hu => by simp⟩,
      ⟨0, 0, [.pSem, .wSem .wait]⟩, rfl, ⟨rfl, fun u k hu => by simp⟩, ⟨0, 1, [.leave (.sig .post) true, .wSem .wait]⟩, rfl, ⟨rfl, fun u k hu => by simp⟩,
      ⟨0, 1, [.idle, .wSem .wait]⟩, rfl, ⟨rfl, fun u k hu => by simp⟩, ⟨0, 0, [.idle, .leave (.acq .wait) true]⟩, rfl, ⟨rfl, fun u k hu => by simp⟩,
      ⟨0, 0, [.idle, .idle]⟩, rfl, ⟨rfl, fun u k hu => by simp [hu]⟩, ⟨0, 0, [.idle, .wAdd .wait]⟩, rfl, ⟨rfl, fun u k hu => by simp⟩,
      ⟨1, 0, [.idle, .wSem .wait]⟩, rfl, ⟨rfl, fun u k hu => by simp⟩, rfl⟩
  have hs : Served step Next st lbl := by
    intro t hr i
    match t with
    | 0 => obtain ⟨j, hj, e⟩ := hR true i; exact ⟨j, hj, e.2⟩
    | 1 => exact hR false i
    | t + 2 =>
      obtain ⟨j, _, a, r, _, hst⟩ := hr 0
      have : (st j).ths[t + 2]? = none := List.getElem?_eq_none (by rw [(hg j).1]; omega)
      simp [step, this] at hst
  refine ⟨st, lbl, ev, h, hs, hs.scheduled, .inr (.inl (by rw [h0]; rfl)), fun i => ?_, fun ho => ?_⟩
  · obtain ⟨j, hj, e⟩ := hR true i; exact ⟨j, hj, 0, e.1⟩
  · obtain ⟨j, _, u, k, hu, he⟩ := ho 0
    exact (hg j).2 u k hu he

end Verif.AutoSem
