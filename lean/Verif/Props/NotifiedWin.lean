import Verif.Proof.NotifiedWin

/-!
# C115: notified waits of the condition variable of Windows come back

The hypothesis `n ≤ 2 ^ 30` on the number of threads is that of C35: failures of `ReleaseSemaphore` are ignored by the code.
-/

namespace Verif.WinCv

open Verif.Spec.Endless

/-- **C115** (condition variable of Windows).  Every call of `notify_one` and `notify_all` ends, in every execution without end in which no thread that can take its next
step again and again is passed over for ever. -/
theorem C115_notify_returns (n : Nat) (st : Nat → St) (lbl : Nat → Nat × Act) (ev : Nat → List Ev) (h : Endless step (init n) st lbl ev)
    (hs : Served step Next st lbl) (t i : Nat) (all : Bool) (hi : .notify t all ∈ ev i) : ∃ j, i < j ∧ .notified t ∈ ev j := by
  obtain ⟨j, hj, hp, hl⟩ := takes h hs (notify_begins h hi) load_go
  rcases load_step h hp hl with ⟨he, _⟩ | hp'
  · exact ⟨j, by omega, he⟩
  · obtain ⟨k, hk, he⟩ := notify_ends h hs hp'
    exact ⟨k, by omega, he⟩

/-- **C115** (condition variable of Windows).  A thread that consumes a notification returns from its wait, in every execution without end in which no thread that can take
its next step again and again is passed over for ever and the user's lock is free again and again. -/
theorem C115_woken_returns (n : Nat) (st : Nat → St) (lbl : Nat → Nat × Act) (ev : Nat → List Ev) (h : Endless step (init n) st lbl ev)
    (hs : Served step Next st lbl) (hf : Often fun j => (st j).user = none) (u c i : Nat) (hi : .took u c ∈ ev i) :
    ∃ j r, i < j ∧ .ret u r ∈ ev j ∧ r ≠ .timeout := by
  obtain ⟨r, hr, hp⟩ := took_relock (steps h i) hi
  obtain ⟨j, hj, he⟩ := relock_ends h hs hf hp
  exact ⟨j, r, by omega, he, hr⟩

/-- **C115** (condition variable of Windows).  Every wait that was counted as a waiter (which it is before it releases the user's lock) when `notify_all` is called returns,
in every execution without end in which no thread that can take its next step again and again is passed over for ever and the user's lock is free again and again. -/
theorem C115_notify_all (n : Nat) (hn : n ≤ 1073741824) (st : Nat → St) (lbl : Nat → Nat × Act) (ev : Nat → List Ev) (h : Endless step (init n) st lbl ev)
    (hs : Served step Next st lbl) (hf : Often fun j => (st j).user = none) (t u i : Nat) (tr : List Ev) (hx : Exec step (init n) tr (st i))
    (hi : .notify t true ∈ ev i) (hu : waits u tr = true) : ∃ j r, i < j ∧ .ret u r ∈ ev j := by
  refine Classical.byContradiction fun hno => ?_
  have hne : ∀ j r, i ≤ j → .ret u r ∉ ev j := fun j r hj he => by
    by_cases hij : i = j
    · subst hij
      have := step_by (steps h i)
      obtain ⟨e, he1⟩ : ∃ e, ev i = [e] := by
        match hev : ev i, this.2 with
        | [], _ => rw [hev] at hi; cases hi
        | [e], _ => exact ⟨e, rfl⟩
        | _ :: _ :: _, hlen => simp at hlen
      rw [he1] at hi he
      rw [← List.mem_singleton.mp hi] at he; simp at he
    · exact hno ⟨j, r, by omega, he⟩
  have hin : ∀ j, i ≤ j → ∃ pc : PC, (st j).ths[u]? = some pc ∧ pc.inside :=
    from_on (p := fun j => ∃ pc : PC, (st j).ths[u]? = some pc ∧ pc.inside) (inside_of_waits hx u hu) fun j hj ⟨pc, hp, hq⟩ => by
      rcases inside_step hp hq (steps h j) with hk | ⟨r, hr⟩
      · exact hk
      · exact absurd (by rw [hr]; exact List.mem_singleton.mpr rfl) (hne j r hj)
  have hnr : ∀ j r, i ≤ j → (st j).ths[u]? ≠ some (.relock r) := fun j r hj hp => by
    obtain ⟨k, hk, he⟩ := relock_ends h hs hf hp
    exact hne k r (by omega) he
  have hreg : ∀ j, i ≤ j → ∃ (pc : PC) (q : Nat), (st j).ths[u]? = some pc ∧ pc.reg q = true := fun j hj => by
    obtain ⟨pc, hp, ⟨q, hq⟩ | ⟨r, rfl⟩⟩ := hin j hj
    · exact ⟨pc, q, hp, hq⟩
    · exact absurd hp (hnr j r hj)
  have hz : ∀ j, i ≤ j → (st j).total ≠ 0 := fun j hj h0 => by
    obtain ⟨pc, q, hp, hq⟩ := hreg j hj
    obtain ⟨k, r, hk, hr⟩ := total_leaves h hs hn h0 hp hq
    exact hnr k r (by omega) hr
  obtain ⟨j, hj, hp, hl⟩ := takes h hs (notify_begins h hi) load_go
  rcases load_step h hp hl with ⟨_, h0⟩ | hp'
  · exact hz j (by omega) h0
  · obtain ⟨k, hk, hp2, hl2⟩ := takes h hs hp' (can_go h hs (.inr (.inl ⟨_, .notify true⟩)))
    obtain ⟨m, hm, hp3, hl3⟩ := takes h hs (enter_step h hp2 hl2) (can_go h hs (.inl rfl))
    exact hz (m + 1) (by omega) (check_step h hp3 hl3)

/-- The hypotheses of the three theorems above can be met: one thread waits, the other calls `notify_all`; the woken thread returns and waits again, and so on for ever. -/
example : ∃ tr st lbl ev, Exec step (init 2) tr (st 0) ∧ waits 0 tr = true ∧ Endless step (init 2) st lbl ev ∧ Served step Next st lbl ∧
    (Often fun j => (st j).user = none) ∧ .notify 1 true ∈ ev 0 ∧ Often fun j => ∃ c, .took 0 c ∈ ev j := by
  have hrun := exec_of_run (step := step) (s := init 2) (r := (_, _)) (ls := [(0, .userLock), (0, .callWait .wait), (0, .go), (0, .go), (0, .go), (0, .go)]) rfl
  obtain ⟨st, lbl, ev, h, h0, hg, hR⟩ : ∃ st lbl ev, Endless step (init 2) st lbl ev ∧ st 0 = ⟨[⟨1, 0, 0, 0, []⟩], 0, 0, 1, none, none, 0, [.blocked .wait 0, .idle]⟩ ∧
      (∀ i, (st i).ths.length = 2 ∧ ((st i).ths = [.blocked .wait 0, .idle] → .notify 1 true ∈ ev i ∨ (st i).total = 0) ∧
        (.ret 0 .noTimeout ∈ ev i → (st i).user = none)) ∧
      ∀ k : Option Bool, Often fun i => match k with
        | some true => (lbl i).1 = 1
        | some false => (lbl i).1 = 0 ∧ .ret 0 .noTimeout ∈ ev i
        | none => ∃ c, .took 0 c ∈ ev i := by
    refine endless_of_rounds (κ := Option Bool) (step := step) (P := fun s => ∃ c, s = ⟨[⟨1, 0, 0, 0, []⟩], 0, 0, 1, none, none, c, [.blocked .wait 0, .idle]⟩)
      (good := fun s _ es => s.ths.length = 2 ∧ (s.ths = [.blocked .wait 0, .idle] → .notify 1 true ∈ es ∨ s.total = 0) ∧
        (.ret 0 .noTimeout ∈ es → s.user = none))
      (R := fun k l es => match k with
        | some true => l.1 = 1
        | some false => l.1 = 0 ∧ .ret 0 .noTimeout ∈ es
        | none => ∃ c, .took 0 c ∈ es) none ?_ (s₀ := init 2) ⟨_, hrun⟩ ⟨0, rfl⟩
    rintro s ⟨c, rfl⟩
    refine ⟨[((1, .callNotify true), [.notify 1 true]), ((1, .go), []), ((1, .go), []), ((1, .go), [.decided 1 true 1]), ((1, .go), [.issued 1 1]), ((1, .go), [.notified 1]),
      ((0, .go), []), ((0, .go), []), ((0, .go), [.took 0 (c + 1)]), ((0, .go), [.ret 0 .noTimeout]),
      ((0, .callWait .wait), [.called 0 .wait]), ((0, .go), []), ((0, .go), []), ((0, .go), [.registered 0]), ((0, .go), []), ((0, .go), [.unlocked 0])],
      ⟨[⟨1, 0, 0, 0, []⟩], 0, 0, 1, none, none, c + 1, [.blocked .wait 0, .idle]⟩, ?_, ⟨_, rfl⟩, fun b => by rcases b with _ | _ | _ <;> simp⟩
    exact ⟨⟨[⟨1, 0, 0, 0, []⟩], 0, 0, 1, none, none, c, [.blocked .wait 0, .nLoad true]⟩, rfl, ⟨rfl, fun _ => by simp, by simp⟩,
      ⟨[⟨1, 0, 0, 0, []⟩], 0, 0, 1, none, none, c, [.blocked .wait 0, .nEnter true]⟩, rfl, ⟨rfl, nofun, by simp⟩,
      ⟨[⟨1, 0, 0, 0, []⟩], 0, 0, 1, some 1, none, c, [.blocked .wait 0, .nCheck true]⟩, rfl, ⟨rfl, nofun, by simp⟩,
      ⟨[⟨1, 0, 0, 0, []⟩], 0, 0, 0, some 1, none, c + 1, [.blocked .wait 0, .waking 1]⟩, rfl, ⟨rfl, nofun, by simp⟩,
      ⟨[⟨1, 1, 1, 0, [c + 1]⟩], 0, 0, 0, some 1, none, c + 1, [.blocked .wait 0, .nExit]⟩, rfl, ⟨rfl, nofun, by simp⟩,
      ⟨[⟨1, 1, 1, 0, [c + 1]⟩], 0, 0, 0, none, none, c + 1, [.blocked .wait 0, .idle]⟩, rfl, ⟨rfl, nofun, by simp⟩,
      ⟨[⟨1, 1, 0, 0, [c + 1]⟩], 0, 0, 0, none, none, c + 1, [.gotTok .wait 0, .idle]⟩, rfl, ⟨rfl, fun _ => by simp, by simp⟩,
      ⟨[⟨1, 1, 0, 0, [c + 1]⟩], 0, 0, 0, some 0, none, c + 1, [.inTok .wait 0, .idle]⟩, rfl, ⟨rfl, nofun, by simp⟩,
      ⟨[⟨0, 0, 0, 0, []⟩], 0, 0, 0, none, none, c + 1, [.relock .noTimeout, .idle]⟩, rfl, ⟨rfl, nofun, by simp⟩,
      ⟨[⟨0, 0, 0, 0, []⟩], 0, 0, 0, none, some 0, c + 1, [.idle, .idle]⟩, rfl, ⟨rfl, nofun, fun _ => rfl⟩,
      ⟨[⟨0, 0, 0, 0, []⟩], 0, 0, 0, none, some 0, c + 1, [.wEnter .wait, .idle]⟩, rfl, ⟨rfl, nofun, by simp⟩,
      ⟨[⟨0, 0, 0, 0, []⟩], 0, 0, 0, some 0, some 0, c + 1, [.wInit .wait, .idle]⟩, rfl, ⟨rfl, nofun, by simp⟩,
      ⟨[⟨0, 0, 0, 0, []⟩], 0, 0, 0, some 0, some 0, c + 1, [.wLoop .wait 0, .idle]⟩, rfl, ⟨rfl, nofun, by simp⟩,
      ⟨[⟨1, 0, 0, 0, []⟩], 0, 0, 1, some 0, some 0, c + 1, [.wExit .wait 0, .idle]⟩, rfl, ⟨rfl, nofun, by simp⟩,
      ⟨[⟨1, 0, 0, 0, []⟩], 0, 0, 1, none, some 0, c + 1, [.wUnlock .wait 0, .idle]⟩, rfl, ⟨rfl, nofun, by simp⟩,
      ⟨[⟨1, 0, 0, 0, []⟩], 0, 0, 1, none, none, c + 1, [.blocked .wait 0, .idle]⟩, rfl, ⟨rfl, nofun, by simp⟩, rfl⟩
  refine ⟨_, st, lbl, ev, h0 ▸ hrun, rfl, h, ?_, fun i => ?_, ?_, hR none⟩
  · intro t hr i
    match t with
    | 0 => obtain ⟨j, hj, e⟩ := hR (some false) i; exact ⟨j, hj, e.1⟩
    | 1 => exact hR (some true) i
    | t + 2 =>
      obtain ⟨j, _, a, r, _, hst⟩ := hr 0
      have : (st j).ths[t + 2]? = none := List.getElem?_eq_none (by rw [(hg j).1]; omega)
      simp [step, this] at hst
  · obtain ⟨j, hj, e⟩ := hR (some false) i; exact ⟨j, hj, (hg j).2.2 e.2⟩
  · rcases (hg 0).2.1 (by rw [h0]) with e | e
    · exact e
    · rw [h0] at e; cases e

end Verif.WinCv
