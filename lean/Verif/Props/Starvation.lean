import Verif.Proof.Starvation
import Verif.Proof.StarvationAuto
import Verif.Proof.StarvationMonitor
import Verif.Proof.StarvationToken
import Verif.Proof.StarvationWin
import Verif.Props.Emulation

/-!
# Nobody is passed over for ever (C114)
-/

namespace Verif.Spin

open Verif.Spec.Endless

/-- **C114** (`spin_mutex`) is false: one thread can lock and unlock the mutex again and again while another one, which takes steps again and again,
never gets it. -/
theorem C114_lock_refuted (v : Variant) :
    Starves (step v) (init 2) 2 Fair (InLock 1) (fun es => .locked 1 ∈ es) [.locked 0, .unlocked 0] := by
  cases v with
  | boolTTS =>
    refine starves_of_rounds (step := step .boolTTS) (P := fun s => ∃ m v0 v1 f, s = ⟨⟨true, m⟩, [⟨.idle, v0⟩, ⟨.lockSpin, v1⟩], f⟩) (by decide)
      (s := ⟨⟨true, []⟩, [⟨.idle, []⟩, ⟨.lockSpin, []⟩], 0⟩) ⟨_, exec_of_run (r := (_, _)) (ls := [(1, .callLock)]) rfl⟩ ⟨_, _, _, _, rfl⟩ ⟨_, rfl, .inl rfl⟩ ?_
    rintro s ⟨m, v0, v1, f, rfl⟩
    refine ⟨[((0, .callLock), []), ((0, .go true), []), ((0, .go true), [.locked 0]), ((1, .go false), []), ((0, .callUnlock), []), ((0, .go false), [.unlocked 0])], ?_⟩
    apply Exists.intro
    refine ⟨?_, ?_, by decide, by decide⟩
    · refine ⟨_, by with_unfolding_all rfl, ⟨by first | exact trivial | exact rfl, by decide⟩, ?_⟩
      refine ⟨_, by with_unfolding_all rfl, ⟨by first | exact trivial | exact rfl, by decide⟩, ?_⟩
      refine ⟨_, by with_unfolding_all rfl, ⟨by first | exact trivial | exact rfl, by decide⟩, ?_⟩
      refine ⟨_, by with_unfolding_all rfl, ⟨by first | exact trivial | exact rfl, by decide⟩, ?_⟩
      refine ⟨_, by with_unfolding_all rfl, ⟨by first | exact trivial | exact rfl, by decide⟩, ?_⟩
      refine ⟨_, by with_unfolding_all rfl, ⟨by first | exact trivial | exact rfl, by decide⟩, ?_⟩
      exact rfl
    · exact ⟨_, _, _, _, rfl⟩
  | flagTAS =>
    refine starves_of_rounds (step := step .flagTAS) (P := fun s => ∃ m v0 v1 f, s = ⟨⟨true, m⟩, [⟨.idle, v0⟩, ⟨.lockXchg, v1⟩], f⟩) (by decide)
      (s := ⟨⟨true, []⟩, [⟨.idle, []⟩, ⟨.lockXchg, []⟩], 0⟩) ⟨_, exec_of_run (r := (_, _)) (ls := [(1, .callLock)]) rfl⟩ ⟨_, _, _, _, rfl⟩ ⟨_, rfl, .inr rfl⟩ ?_
    rintro s ⟨m, v0, v1, f, rfl⟩
    refine ⟨[((0, .callLock), []), ((0, .go true), [.locked 0]), ((1, .go false), []), ((0, .callUnlock), []), ((0, .go false), [.unlocked 0])], ?_⟩
    apply Exists.intro
    refine ⟨?_, ?_, by decide, by decide⟩
    · refine ⟨_, by with_unfolding_all rfl, ⟨by first | exact trivial | exact rfl, by decide⟩, ?_⟩
      refine ⟨_, by with_unfolding_all rfl, ⟨by first | exact trivial | exact rfl, by decide⟩, ?_⟩
      refine ⟨_, by with_unfolding_all rfl, ⟨by first | exact trivial | exact rfl, by decide⟩, ?_⟩
      refine ⟨_, by with_unfolding_all rfl, ⟨by first | exact trivial | exact rfl, by decide⟩, ?_⟩
      refine ⟨_, by with_unfolding_all rfl, ⟨by first | exact trivial | exact rfl, by decide⟩, ?_⟩
      exact rfl
    · exact ⟨_, _, _, _, rfl⟩

/-- **C114** (`spin_mutex`), what holds: if the mutex is free again and again, and it is not again and again taken by other threads, `lock()` returns in every
execution without end in which the scheduler does not forget a thread and loads read the newest value.  Missing: the same without the second
condition, which is false. -/
theorem C114_lock_partial (v : Variant) (n : Nat) (st : Nat → St) (lbl : Nat → Nat × Act) (ev : Nat → List Ev)
    (h : Endless (step v) (init n) st lbl ev) (hs : Scheduled (step v) Next st lbl) (hl : ∀ j, Fair (st j) (lbl j).2) (t i : Nat)
    (hi : InLock t (st i)) (hfree : Often fun j => Free (st j))
    (hno : ¬ Often fun j => ∃ u, u ≠ t ∧ (.locked u ∈ ev j ∨ .tried u true ∈ ev j)) : ∃ j, i ≤ j ∧ .locked t ∈ ev j := by
  obtain ⟨i1, hi1⟩ := not_often hno
  obtain ⟨j0, hj0, hf0⟩ := hfree (max i i1)
  refine Classical.byContradiction fun hn => ?_
  have never : ∀ j, i ≤ j → .locked t ∉ ev j := fun j hj hg => hn ⟨j, hj, hg⟩
  have inl : ∀ j, i ≤ j → InLock t (st j) := from_on hi fun j hj hin => stays_in (u := (lbl j).1) (a := (lbl j).2) (h.next j) hin (never j hj)
  have free : ∀ j, j0 ≤ j → (st j).word.val = true := by
    obtain ⟨tr, hr⟩ := h.reachable j0
    refine from_on (free_word (inv_exec hr) hf0) fun j hj hw => ?_
    have hs := h.next j
    rw [show lbl j = ((lbl j).1, (lbl j).2) from rfl] at hs
    by_cases ht : (lbl j).1 = t
    · refine stays_free hs hw (ht ▸ never j (by omega)) ?_
      intro hm
      obtain ⟨th, h1, h2⟩ := inl j (by omega)
      rw [ht] at hs hm
      have := stays_in hs ⟨th, h1, h2⟩ (never j (by omega))
      simp only [step, h1] at hs
      rcases h2 with h2 | h2 <;> rw [h2] at hs <;> cases hl2 : (lbl j).2 <;> rw [hl2] at hs <;> try (cases hs; done)
      · obtain ⟨-, e⟩ := Prod.mk.inj (Option.some.inj hs); rw [← e] at hm; cases hm
      · dsimp only at hs
        split at hs <;> (obtain ⟨-, e⟩ := Prod.mk.inj (Option.some.inj hs); rw [← e] at hm; revert hm; simp)
    · exact stays_free hs hw (fun hm => hi1 j (by omega) ⟨_, ht, .inl hm⟩) (fun hm => hi1 j (by omega) ⟨_, ht, .inr hm⟩)
  obtain ⟨j, hj, hg⟩ := hs.lead (fun j => rank t (st j)) (fun _ u => u = t) (fun j => .locked t ∈ ev j) j0 (fun _ _ _ => ⟨t, rfl⟩)
    (fun j u hj _ hu => hu ▸ ready (inl j (by omega)))
    (fun j u hj hg hu hb => rank_self (v := v) (a := (lbl j).2) (by rw [← hu, ← hb]; exact h.next j) (inl j (by omega)) (free j hj) (hl j) hg)
    (fun j u hj _ hu hb => .inr ⟨by
      have := other (t := t) (u := (lbl j).1) (a := (lbl j).2) (h.next j) (hu ▸ hb)
      simp only [rank, this], hu⟩)
  exact hn ⟨j, by omega, hg⟩


/-- The hypotheses of `C114_lock_partial` can be met. -/
example : ∃ st lbl ev, Endless (step .boolTTS) (init 2) st lbl ev ∧ Scheduled (step .boolTTS) Next st lbl ∧ (∀ j, Fair (st j) (lbl j).2) ∧ InLock 1 (st 0) ∧
    (Often fun j => Free (st j)) ∧ ¬ Often fun j => (∃ u, u ≠ 1 ∧ (.locked u ∈ ev j ∨ .tried u true ∈ ev j)) := by
  obtain ⟨st, lbl, ev, h, h0, hg, hR⟩ : ∃ st lbl ev, Endless (step .boolTTS) (init 2) st lbl ev ∧ st 0 = ⟨⟨true, []⟩, [⟨.idle, []⟩, ⟨.lockSpin, []⟩], 0⟩ ∧
      (∀ i, Fair (st i) (lbl i).2 ∧ (st i).ths.length = 2 ∧ (lbl i = (0, .doWork) → Free (st i)) ∧ ¬ (∃ u, u ≠ 1 ∧ (.locked u ∈ ev i ∨ .tried u true ∈ ev i))) ∧
      ∀ k : Bool, Often fun i => if k then lbl i = (0, .doWork) else (lbl i).1 = 1 := by
    refine endless_of_rounds (step := step .boolTTS) (P := fun s => ∃ m v0 v1 f, s = ⟨⟨true, m⟩, [⟨.idle, v0⟩, ⟨.lockSpin, v1⟩], f⟩ ∨ s = ⟨⟨true, m⟩, [⟨.idle, v0⟩, ⟨.idle, v1⟩], f⟩)
      (good := fun s l es => Fair s l.2 ∧ s.ths.length = 2 ∧ (l = (0, .doWork) → Free s) ∧ ¬ (∃ u, u ≠ 1 ∧ (.locked u ∈ es ∨ .tried u true ∈ es)))
      (R := fun k l _ => if k then l = (0, .doWork) else l.1 = 1) true ?_ (s₀ := init 2) (s := ⟨⟨true, []⟩, [⟨.idle, []⟩, ⟨.lockSpin, []⟩], 0⟩) ⟨_, exec_of_run (r := (_, _)) (ls := [(1, .callLock)]) rfl⟩ ⟨_, _, _, _, .inl rfl⟩
    rintro s ⟨m, v0, v1, f, rfl | rfl⟩
    · refine ⟨[((1, .go true), []), ((1, .go true), [.locked 1]), ((1, .callUnlock), []), ((1, .go false), [.unlocked 1]), ((0, .doWork), [.work 0 f])], ?_⟩
      apply Exists.intro
      refine ⟨?_, ?_, fun k => by cases k <;> simp⟩
      refine ⟨⟨⟨true, _⟩, [⟨.idle, _⟩, ⟨.lockXchg, _⟩], _⟩, by with_unfolding_all rfl, ⟨by first | exact trivial | exact rfl, rfl, fun hd => by first | (cases hd; done) | (intro th hth; revert hth; simp; rintro (rfl | rfl) <;> simp [Th.owns]), by rintro ⟨u, hu, h | h⟩ <;> simp_all⟩, ?_⟩
      refine ⟨⟨⟨false, _⟩, [⟨.idle, _⟩, ⟨.owner, _⟩], _⟩, by with_unfolding_all rfl, ⟨by first | exact trivial | exact rfl, rfl, fun hd => by first | (cases hd; done) | (intro th hth; revert hth; simp; rintro (rfl | rfl) <;> simp [Th.owns]), by rintro ⟨u, hu, h | h⟩ <;> simp_all⟩, ?_⟩
      refine ⟨⟨⟨false, _⟩, [⟨.idle, _⟩, ⟨.unlocking, _⟩], _⟩, by with_unfolding_all rfl, ⟨by first | exact trivial | exact rfl, rfl, fun hd => by first | (cases hd; done) | (intro th hth; revert hth; simp; rintro (rfl | rfl) <;> simp [Th.owns]), by rintro ⟨u, hu, h | h⟩ <;> simp_all⟩, ?_⟩
      refine ⟨⟨⟨true, _⟩, [⟨.idle, _⟩, ⟨.idle, _⟩], _⟩, by with_unfolding_all rfl, ⟨by first | exact trivial | exact rfl, rfl, fun hd => by first | (cases hd; done) | (intro th hth; revert hth; simp; rintro (rfl | rfl) <;> simp [Th.owns]), by rintro ⟨u, hu, h | h⟩ <;> simp_all⟩, ?_⟩
      refine ⟨⟨⟨true, _⟩, [⟨.idle, _⟩, ⟨.idle, _⟩], _⟩, by with_unfolding_all rfl, ⟨by first | exact trivial | exact rfl, rfl, fun hd => by first | (cases hd; done) | (intro th hth; revert hth; simp; rintro (rfl | rfl) <;> simp [Th.owns]), by rintro ⟨u, hu, h | h⟩ <;> simp_all⟩, ?_⟩
      exact rfl
      exact ⟨_, _, _, _, .inr rfl⟩
    · refine ⟨[((0, .doWork), [.work 0 f]), ((1, .doWork), [.work 1 (f + 1)])], ?_⟩
      apply Exists.intro
      refine ⟨?_, ?_, fun k => by cases k <;> simp⟩
      refine ⟨⟨⟨true, _⟩, [⟨.idle, _⟩, ⟨.idle, _⟩], _⟩, by with_unfolding_all rfl, ⟨by first | exact trivial | exact rfl, rfl, fun hd => by first | (cases hd; done) | (intro th hth; revert hth; simp; rintro (rfl | rfl) <;> simp [Th.owns]), by rintro ⟨u, hu, h | h⟩ <;> simp_all⟩, ?_⟩
      refine ⟨⟨⟨true, _⟩, [⟨.idle, _⟩, ⟨.idle, _⟩], _⟩, by with_unfolding_all rfl, ⟨by first | exact trivial | exact rfl, rfl, fun hd => by first | (cases hd; done) | (intro th hth; revert hth; simp; rintro (rfl | rfl) <;> simp [Th.owns]), by rintro ⟨u, hu, h | h⟩ <;> simp_all⟩, ?_⟩
      exact rfl
      exact ⟨_, _, _, _, .inr rfl⟩
  refine ⟨st, lbl, ev, h, scheduled_of_often (n := 2) ?_ ?_, fun j => (hg j).1, h0 ▸ ⟨_, rfl, .inl rfl⟩, ?_, ?_⟩
  · intro u hu i
    match u, hu with
    | 0, _ => exact (hR true i).imp fun j hj => ⟨hj.1, by have := hj.2; simp only [if_true] at this; simp only [this]⟩
    | 1, _ => exact (hR false i).imp fun j hj => ⟨hj.1, by simpa using hj.2⟩
  · rintro i u hu ⟨a, r, -, hs⟩
    have := (hg i).2.1
    simp only [step, List.getElem?_eq_none (this ▸ hu)] at hs
    cases hs
  · exact fun i => (hR true i).imp fun j hj => ⟨hj.1, (hg j).2.2.1 (by simpa using hj.2)⟩
  · intro ho; obtain ⟨j, -, hj⟩ := ho 0; exact (hg j).2.2.2 hj

end Verif.Spin

namespace Verif.SharedSpin

open Verif.Spec.Endless

/-- **C114** (`shared_spin_mutex`) is false for `lock()`: two readers whose sections overlap keep a writer out for ever. -/
theorem C114_lock_refuted : Starves step (init 3) 3 Fair (InLock 2) (fun es => .locked 2 ∈ es)
    [.lockedShared 0, .unlockedShared 0, .lockedShared 1, .unlockedShared 1] := by
  refine starves_of_rounds (step := step) (P := fun s => ∃ m v0 v1 v2 f, s = ⟨⟨1, m⟩, [⟨.sharer, v0⟩, ⟨.idle, v1⟩, ⟨.lockSpin, v2⟩], f⟩) (by decide)
    (s := ⟨⟨1, []⟩, [⟨.sharer, []⟩, ⟨.idle, []⟩, ⟨.lockSpin, []⟩], 0⟩) ⟨_, exec_of_run (r := (_, _)) (ls := [(0, .callLockShared), (0, .load 0), (0, .load 0), (0, .go), (2, .callLock)]) rfl⟩ ⟨_, _, _, _, _, rfl⟩ ⟨_, rfl, .inl rfl⟩ ?_
  rintro s ⟨m, v0, v1, v2, f, rfl⟩
  refine ⟨[((1, .callLockShared), []), ((1, .load 1), []), ((1, .load 1), []), ((1, .go), [.lockedShared 1]), ((2, .load 2), []), ((0, .callUnlockShared), []),
      ((0, .go), [.unlockedShared 0]), ((0, .callLockShared), []), ((0, .load 1), []), ((0, .load 1), []), ((0, .go), [.lockedShared 0]),
      ((1, .callUnlockShared), []), ((1, .go), [.unlockedShared 1])], ?_⟩
  apply Exists.intro
  refine ⟨?_, ?_, by decide, by decide⟩
  · refine ⟨⟨⟨1, _⟩, [⟨.sharer, _⟩, ⟨.sharedSpin, _⟩, ⟨.lockSpin, _⟩], _⟩, by with_unfolding_all rfl, ⟨by first | exact trivial | exact rfl, by decide⟩, ?_⟩
    refine ⟨⟨⟨1, _⟩, [⟨.sharer, _⟩, ⟨.sharedLoad, _⟩, ⟨.lockSpin, _⟩], _⟩, by with_unfolding_all rfl, ⟨by first | exact trivial | exact rfl, by decide⟩, ?_⟩
    refine ⟨⟨⟨1, _⟩, [⟨.sharer, _⟩, ⟨.sharedCas 1, _⟩, ⟨.lockSpin, _⟩], _⟩, by with_unfolding_all rfl, ⟨by first | exact trivial | exact rfl, by decide⟩, ?_⟩
    refine ⟨⟨⟨2, _⟩, [⟨.sharer, _⟩, ⟨.sharer, _⟩, ⟨.lockSpin, _⟩], _⟩, by with_unfolding_all rfl, ⟨by first | exact trivial | exact rfl, by decide⟩, ?_⟩
    refine ⟨⟨⟨2, _⟩, [⟨.sharer, _⟩, ⟨.sharer, _⟩, ⟨.lockSpin, _⟩], _⟩, by with_unfolding_all rfl, ⟨by first | exact trivial | exact rfl, by decide⟩, ?_⟩
    refine ⟨⟨⟨2, _⟩, [⟨.sharedUnlocking, _⟩, ⟨.sharer, _⟩, ⟨.lockSpin, _⟩], _⟩, by with_unfolding_all rfl, ⟨by first | exact trivial | exact rfl, by decide⟩, ?_⟩
    refine ⟨⟨⟨1, _⟩, [⟨.idle, _⟩, ⟨.sharer, _⟩, ⟨.lockSpin, _⟩], _⟩, by with_unfolding_all rfl, ⟨by first | exact trivial | exact rfl, by decide⟩, ?_⟩
    refine ⟨⟨⟨1, _⟩, [⟨.sharedSpin, _⟩, ⟨.sharer, _⟩, ⟨.lockSpin, _⟩], _⟩, by with_unfolding_all rfl, ⟨by first | exact trivial | exact rfl, by decide⟩, ?_⟩
    refine ⟨⟨⟨1, _⟩, [⟨.sharedLoad, _⟩, ⟨.sharer, _⟩, ⟨.lockSpin, _⟩], _⟩, by with_unfolding_all rfl, ⟨by first | exact trivial | exact rfl, by decide⟩, ?_⟩
    refine ⟨⟨⟨1, _⟩, [⟨.sharedCas 1, _⟩, ⟨.sharer, _⟩, ⟨.lockSpin, _⟩], _⟩, by with_unfolding_all rfl, ⟨by first | exact trivial | exact rfl, by decide⟩, ?_⟩
    refine ⟨⟨⟨2, _⟩, [⟨.sharer, _⟩, ⟨.sharer, _⟩, ⟨.lockSpin, _⟩], _⟩, by with_unfolding_all rfl, ⟨by first | exact trivial | exact rfl, by decide⟩, ?_⟩
    refine ⟨⟨⟨2, _⟩, [⟨.sharer, _⟩, ⟨.sharedUnlocking, _⟩, ⟨.lockSpin, _⟩], _⟩, by with_unfolding_all rfl, ⟨by first | exact trivial | exact rfl, by decide⟩, ?_⟩
    refine ⟨⟨⟨1, _⟩, [⟨.sharer, _⟩, ⟨.idle, _⟩, ⟨.lockSpin, _⟩], _⟩, by with_unfolding_all rfl, ⟨by first | exact trivial | exact rfl, by decide⟩, ?_⟩
    exact rfl
  · exact ⟨_, _, _, _, _, rfl⟩

/-- **C114** (`shared_spin_mutex`) is false for `lock_shared()`: a writer that locks the mutex again and again keeps a reader out for ever. -/
theorem C114_lock_shared_refuted : Starves step (init 2) 2 Fair (InShared 1) (fun es => .lockedShared 1 ∈ es) [.locked 0, .unlocked 0] := by
  refine starves_of_rounds (step := step) (P := fun s => ∃ m v0 v1 f, s = ⟨⟨0, m⟩, [⟨.idle, v0⟩, ⟨.sharedSpin, v1⟩], f⟩) (by decide)
    (s := ⟨⟨0, []⟩, [⟨.idle, []⟩, ⟨.sharedSpin, []⟩], 0⟩) ⟨_, exec_of_run (r := (_, _)) (ls := [(1, .callLockShared)]) rfl⟩ ⟨_, _, _, _, rfl⟩ ⟨_, rfl, .inl rfl⟩ ?_
  rintro s ⟨m, v0, v1, f, rfl⟩
  refine ⟨[((0, .callLock), []), ((0, .load 0), []), ((0, .go), [.locked 0]), ((1, .load 0x80000000), []), ((0, .callUnlock), []), ((0, .go), [.unlocked 0])], ?_⟩
  apply Exists.intro
  refine ⟨?_, ?_, by decide, by decide⟩
  · refine ⟨⟨⟨0, _⟩, [⟨.lockSpin, _⟩, ⟨.sharedSpin, _⟩], _⟩, by with_unfolding_all rfl, ⟨by first | exact trivial | exact rfl, by decide⟩, ?_⟩
    refine ⟨⟨⟨0, _⟩, [⟨.lockCas, _⟩, ⟨.sharedSpin, _⟩], _⟩, by with_unfolding_all rfl, ⟨by first | exact trivial | exact rfl, by decide⟩, ?_⟩
    refine ⟨⟨⟨0x80000000, _⟩, [⟨.owner, _⟩, ⟨.sharedSpin, _⟩], _⟩, by with_unfolding_all rfl, ⟨by first | exact trivial | exact rfl, by decide⟩, ?_⟩
    refine ⟨⟨⟨0x80000000, _⟩, [⟨.owner, _⟩, ⟨.sharedSpin, _⟩], _⟩, by with_unfolding_all rfl, ⟨by first | exact trivial | exact rfl, by decide⟩, ?_⟩
    refine ⟨⟨⟨0x80000000, _⟩, [⟨.unlocking, _⟩, ⟨.sharedSpin, _⟩], _⟩, by with_unfolding_all rfl, ⟨by first | exact trivial | exact rfl, by decide⟩, ?_⟩
    refine ⟨⟨⟨0, _⟩, [⟨.idle, _⟩, ⟨.sharedSpin, _⟩], _⟩, by with_unfolding_all rfl, ⟨by first | exact trivial | exact rfl, by decide⟩, ?_⟩
    exact rfl
  · exact ⟨_, _, _, _, rfl⟩

/-- **C114** (`shared_spin_mutex`) is false for `lock_shared()` also if the mutex is never locked exclusively: readers that come and go make the
compare-exchange of another one fail again and again. -/
theorem C114_readers_refuted : Starves step (init 2) 2 Fair (InShared 1) (fun es => .lockedShared 1 ∈ es ∨ .locked 0 ∈ es ∨ .locked 1 ∈ es)
    [.lockedShared 0, .unlockedShared 0] := by
  refine starves_of_rounds (step := step) (P := fun s => ∃ m v0 v1 f, s = ⟨⟨0, m⟩, [⟨.idle, v0⟩, ⟨.sharedSpin, v1⟩], f⟩) (by decide)
    (s := ⟨⟨0, []⟩, [⟨.idle, []⟩, ⟨.sharedSpin, []⟩], 0⟩) ⟨_, exec_of_run (r := (_, _)) (ls := [(1, .callLockShared)]) rfl⟩ ⟨_, _, _, _, rfl⟩ ⟨_, rfl, .inl rfl⟩ ?_
  rintro s ⟨m, v0, v1, f, rfl⟩
  refine ⟨[((1, .load 0), []), ((1, .load 0), []), ((0, .callLockShared), []), ((0, .load 0), []), ((0, .load 0), []), ((0, .go), [.lockedShared 0]), ((1, .go), []),
      ((0, .callUnlockShared), []), ((0, .go), [.unlockedShared 0])], ?_⟩
  apply Exists.intro
  refine ⟨?_, ?_, by decide, by decide⟩
  · refine ⟨⟨⟨0, _⟩, [⟨.idle, _⟩, ⟨.sharedLoad, _⟩], _⟩, by with_unfolding_all rfl, ⟨by first | exact trivial | exact rfl, by decide⟩, ?_⟩
    refine ⟨⟨⟨0, _⟩, [⟨.idle, _⟩, ⟨.sharedCas 0, _⟩], _⟩, by with_unfolding_all rfl, ⟨by first | exact trivial | exact rfl, by decide⟩, ?_⟩
    refine ⟨⟨⟨0, _⟩, [⟨.sharedSpin, _⟩, ⟨.sharedCas 0, _⟩], _⟩, by with_unfolding_all rfl, ⟨by first | exact trivial | exact rfl, by decide⟩, ?_⟩
    refine ⟨⟨⟨0, _⟩, [⟨.sharedLoad, _⟩, ⟨.sharedCas 0, _⟩], _⟩, by with_unfolding_all rfl, ⟨by first | exact trivial | exact rfl, by decide⟩, ?_⟩
    refine ⟨⟨⟨0, _⟩, [⟨.sharedCas 0, _⟩, ⟨.sharedCas 0, _⟩], _⟩, by with_unfolding_all rfl, ⟨by first | exact trivial | exact rfl, by decide⟩, ?_⟩
    refine ⟨⟨⟨1, _⟩, [⟨.sharer, _⟩, ⟨.sharedCas 0, _⟩], _⟩, by with_unfolding_all rfl, ⟨by first | exact trivial | exact rfl, by decide⟩, ?_⟩
    refine ⟨⟨⟨1, _⟩, [⟨.sharer, _⟩, ⟨.sharedSpin, _⟩], _⟩, by with_unfolding_all rfl, ⟨by first | exact trivial | exact rfl, by decide⟩, ?_⟩
    refine ⟨⟨⟨1, _⟩, [⟨.sharedUnlocking, _⟩, ⟨.sharedSpin, _⟩], _⟩, by with_unfolding_all rfl, ⟨by first | exact trivial | exact rfl, by decide⟩, ?_⟩
    refine ⟨⟨⟨0, _⟩, [⟨.idle, _⟩, ⟨.sharedSpin, _⟩], _⟩, by with_unfolding_all rfl, ⟨by first | exact trivial | exact rfl, by decide⟩, ?_⟩
    exact rfl
  · exact ⟨_, _, _, _, rfl⟩

private theorem others {st : Nat → St} {lbl : Nat → Nat × Act} {ev : Nat → List Ev} {n : Nat} (h : Endless step (init n) st lbl ev) {t i : Nat}
    (hfree : Often fun j => Free (st j)) (hno : ¬ Often fun j => OtherTakes t (ev j))
    (hself : ∀ j, i ≤ j → (lbl j).1 = t → .locked t ∉ ev j ∧ .tried t true ∉ ev j ∧ .lockedShared t ∉ ev j ∧ .triedShared t true ∉ ev j) :
    ∃ j0, i ≤ j0 ∧ ∀ j, j0 ≤ j → (st j).word.val = 0 := by
  obtain ⟨i1, hi1⟩ := not_often hno
  obtain ⟨j0, hj0, hf0⟩ := hfree (max i i1)
  refine ⟨j0, by omega, fun j hj => ?_⟩
  refine (from_on (p := fun j => (st j).word.val = 0 ∧ Free (st j)) (i := j0) ?_ ?_ j hj).1
  · obtain ⟨tr, hr⟩ := h.reachable j0
    exact ⟨free_word (inv_exec hr).1 hf0, hf0⟩
  · intro j hj hw
    have hs := h.next j
    rw [show lbl j = ((lbl j).1, (lbl j).2) from rfl] at hs
    have := stays_free hs hw.2
    by_cases ht : (lbl j).1 = t
    · have hq := hself j (by omega) ht
      rw [ht] at this
      have := this hq.1 hq.2.1 hq.2.2.1 hq.2.2.2
      exact ⟨this.1.trans hw.1, this.2⟩
    · have no := hi1 j (by omega)
      have := this (fun hm => no ⟨_, ht, .inl hm⟩) (fun hm => no ⟨_, ht, .inr (.inl hm)⟩) (fun hm => no ⟨_, ht, .inr (.inr (.inl hm))⟩)
        (fun hm => no ⟨_, ht, .inr (.inr (.inr hm))⟩)
      exact ⟨this.1.trans hw.1, this.2⟩

/-- **C114** (`shared_spin_mutex`), what holds of `lock()`: as for `spin_mutex`. -/
theorem C114_lock_partial (n : Nat) (st : Nat → St) (lbl : Nat → Nat × Act) (ev : Nat → List Ev) (h : Endless step (init n) st lbl ev)
    (hs : Scheduled step Next st lbl) (hl : ∀ j, Fair (st j) (lbl j).2) (t i : Nat) (hi : InLock t (st i))
    (hfree : Often fun j => Free (st j)) (hno : ¬ Often fun j => OtherTakes t (ev j)) : ∃ j, i ≤ j ∧ .locked t ∈ ev j := by
  refine Classical.byContradiction fun hn => ?_
  have never : ∀ j, i ≤ j → .locked t ∉ ev j := fun j hj hg => hn ⟨j, hj, hg⟩
  have inl : ∀ j, i ≤ j → InLock t (st j) := from_on hi fun j hj hin => stays_in (u := (lbl j).1) (a := (lbl j).2) (h.next j) hin (never j hj)
  obtain ⟨j0, hj0, free⟩ := others h hfree hno (i := i) (fun j hj ht => ⟨never j hj, by
    have hs := h.next j
    obtain ⟨th, h1, h2⟩ := inl j hj
    rw [show lbl j = (t, (lbl j).2) from by rw [← ht]] at hs
    simp only [step, h1] at hs
    rcases h2 with h2 | h2 <;> rw [h2] at hs <;> cases hl2 : (lbl j).2 <;> rw [hl2] at hs <;> try (cases hs; done)
    · obtain ⟨-, e⟩ := Prod.mk.inj (Option.some.inj hs); rw [← e]; simp
    · dsimp only at hs
      split at hs <;> (obtain ⟨-, e⟩ := Prod.mk.inj (Option.some.inj hs); rw [← e]; simp)
    · obtain ⟨-, e⟩ := Prod.mk.inj (Option.some.inj hs); rw [← e]; simp⟩)
  obtain ⟨j, hj, hg⟩ := hs.lead (fun j => rank t (st j)) (fun _ u => u = t) (fun j => .locked t ∈ ev j) j0 (fun _ _ _ => ⟨t, rfl⟩)
    (fun j u hj _ hu => hu ▸ ready (.inl (inl j (by omega))))
    (fun j u hj hg hu hb => rank_self (a := (lbl j).2) (by rw [← hu, ← hb]; exact h.next j) (inl j (by omega)) (free j hj) (hl j) hg)
    (fun j u hj _ hu hb => .inr ⟨by
      have := other (t := t) (u := (lbl j).1) (a := (lbl j).2) (h.next j) (hu ▸ hb)
      simp only [rank, this], hu⟩)
  exact hn ⟨j, by omega, hg⟩

/-- **C114** (`shared_spin_mutex`), what holds of `lock_shared()`: as for `spin_mutex`. -/
theorem C114_lock_shared_partial (n : Nat) (st : Nat → St) (lbl : Nat → Nat × Act) (ev : Nat → List Ev) (h : Endless step (init n) st lbl ev)
    (hs : Scheduled step Next st lbl) (hl : ∀ j, Fair (st j) (lbl j).2) (t i : Nat) (hi : InShared t (st i))
    (hfree : Often fun j => Free (st j)) (hno : ¬ Often fun j => OtherTakes t (ev j)) : ∃ j, i ≤ j ∧ .lockedShared t ∈ ev j := by
  refine Classical.byContradiction fun hn => ?_
  have never : ∀ j, i ≤ j → .lockedShared t ∉ ev j := fun j hj hg => hn ⟨j, hj, hg⟩
  have inl : ∀ j, i ≤ j → InShared t (st j) :=
    from_on hi fun j hj hin => stays_in_shared (u := (lbl j).1) (a := (lbl j).2) (h.next j) hin (never j hj)
  obtain ⟨j0, hj0, free⟩ := others h hfree hno (i := i) (fun j hj ht => by
    have hs := h.next j
    have nv := never j hj
    obtain ⟨th, h1, h2⟩ := inl j hj
    rw [show lbl j = (t, (lbl j).2) from by rw [← ht]] at hs
    simp only [step, h1] at hs
    rcases h2 with h2 | h2 | ⟨c, h2⟩ <;> rw [h2] at hs <;> cases hl2 : (lbl j).2 <;> rw [hl2] at hs <;> try (cases hs; done)
    · obtain ⟨-, e⟩ := Prod.mk.inj (Option.some.inj hs); rw [← e]; simp
    · obtain ⟨-, e⟩ := Prod.mk.inj (Option.some.inj hs); rw [← e]; simp
    · dsimp only at hs
      split at hs
      · obtain ⟨-, e⟩ := Prod.mk.inj (Option.some.inj hs); rw [← e] at nv; exact absurd (List.mem_singleton.2 rfl) nv
      · obtain ⟨-, e⟩ := Prod.mk.inj (Option.some.inj hs); rw [← e]; simp
    · obtain ⟨-, e⟩ := Prod.mk.inj (Option.some.inj hs); rw [← e]; simp)
  obtain ⟨j, hj, hg⟩ := hs.lead (fun j => rank t (st j)) (fun _ u => u = t) (fun j => .lockedShared t ∈ ev j) j0 (fun _ _ _ => ⟨t, rfl⟩)
    (fun j u hj _ hu => hu ▸ ready (.inr (inl j (by omega))))
    (fun j u hj hg hu hb => rank_shared (a := (lbl j).2) (by rw [← hu, ← hb]; exact h.next j) (inl j (by omega)) (free j hj) (hl j) hg)
    (fun j u hj _ hu hb => .inr ⟨by
      have := other (t := t) (u := (lbl j).1) (a := (lbl j).2) (h.next j) (hu ▸ hb)
      simp only [rank, this], hu⟩)
  exact hn ⟨j, by omega, hg⟩


/-- The hypotheses of `C114_lock_partial` can be met. -/
example : ∃ st lbl ev, Endless (step) (init 2) st lbl ev ∧ Scheduled (step) Next st lbl ∧ (∀ j, Fair (st j) (lbl j).2) ∧ InLock 1 (st 0) ∧
    (Often fun j => Free (st j)) ∧ ¬ Often fun j => OtherTakes 1 (ev j) := by
  obtain ⟨st, lbl, ev, h, h0, hg, hR⟩ : ∃ st lbl ev, Endless (step) (init 2) st lbl ev ∧ st 0 = ⟨⟨0, []⟩, [⟨.idle, []⟩, ⟨.lockSpin, []⟩], 0⟩ ∧
      (∀ i, Fair (st i) (lbl i).2 ∧ (st i).ths.length = 2 ∧ (lbl i = (0, .doWork) → Free (st i)) ∧ ¬ OtherTakes 1 (ev i)) ∧
      ∀ k : Bool, Often fun i => if k then lbl i = (0, .doWork) else (lbl i).1 = 1 := by
    refine endless_of_rounds (step := step) (P := fun s => ∃ m v0 v1 f, s = ⟨⟨0, m⟩, [⟨.idle, v0⟩, ⟨.lockSpin, v1⟩], f⟩ ∨ s = ⟨⟨0, m⟩, [⟨.idle, v0⟩, ⟨.idle, v1⟩], f⟩)
      (good := fun s l es => Fair s l.2 ∧ s.ths.length = 2 ∧ (l = (0, .doWork) → Free s) ∧ ¬ OtherTakes 1 es)
      (R := fun k l _ => if k then l = (0, .doWork) else l.1 = 1) true ?_ (s₀ := init 2) (s := ⟨⟨0, []⟩, [⟨.idle, []⟩, ⟨.lockSpin, []⟩], 0⟩) ⟨_, exec_of_run (r := (_, _)) (ls := [(1, .callLock)]) rfl⟩ ⟨_, _, _, _, .inl rfl⟩
    rintro s ⟨m, v0, v1, f, rfl | rfl⟩
    · refine ⟨[((1, .load 0), []), ((1, .go), [.locked 1]), ((1, .callUnlock), []), ((1, .go), [.unlocked 1]), ((0, .doWork), [.work 0 f])], ?_⟩
      apply Exists.intro
      refine ⟨?_, ?_, fun k => by cases k <;> simp⟩
      refine ⟨⟨⟨0, _⟩, [⟨.idle, _⟩, ⟨.lockCas, _⟩], _⟩, by with_unfolding_all rfl, ⟨by first | exact trivial | exact rfl, rfl, fun hd => by first | (cases hd; done) | (intro th hth; revert hth; simp; rintro (rfl | rfl) <;> simp), by rintro ⟨u, hu, h | h | h | h⟩ <;> simp_all⟩, ?_⟩
      refine ⟨⟨⟨0x80000000, _⟩, [⟨.idle, _⟩, ⟨.owner, _⟩], _⟩, by with_unfolding_all rfl, ⟨by first | exact trivial | exact rfl, rfl, fun hd => by first | (cases hd; done) | (intro th hth; revert hth; simp; rintro (rfl | rfl) <;> simp), by rintro ⟨u, hu, h | h | h | h⟩ <;> simp_all⟩, ?_⟩
      refine ⟨⟨⟨0x80000000, _⟩, [⟨.idle, _⟩, ⟨.unlocking, _⟩], _⟩, by with_unfolding_all rfl, ⟨by first | exact trivial | exact rfl, rfl, fun hd => by first | (cases hd; done) | (intro th hth; revert hth; simp; rintro (rfl | rfl) <;> simp), by rintro ⟨u, hu, h | h | h | h⟩ <;> simp_all⟩, ?_⟩
      refine ⟨⟨⟨0, _⟩, [⟨.idle, _⟩, ⟨.idle, _⟩], _⟩, by with_unfolding_all rfl, ⟨by first | exact trivial | exact rfl, rfl, fun hd => by first | (cases hd; done) | (intro th hth; revert hth; simp; rintro (rfl | rfl) <;> simp), by rintro ⟨u, hu, h | h | h | h⟩ <;> simp_all⟩, ?_⟩
      refine ⟨⟨⟨0, _⟩, [⟨.idle, _⟩, ⟨.idle, _⟩], _⟩, by with_unfolding_all rfl, ⟨by first | exact trivial | exact rfl, rfl, fun hd => by first | (cases hd; done) | (intro th hth; revert hth; simp; rintro (rfl | rfl) <;> simp), by rintro ⟨u, hu, h | h | h | h⟩ <;> simp_all⟩, ?_⟩
      exact rfl
      exact ⟨_, _, _, _, .inr rfl⟩
    · refine ⟨[((0, .doWork), [.work 0 f]), ((1, .doWork), [.work 1 (f + 1)])], ?_⟩
      apply Exists.intro
      refine ⟨?_, ?_, fun k => by cases k <;> simp⟩
      refine ⟨⟨⟨0, _⟩, [⟨.idle, _⟩, ⟨.idle, _⟩], _⟩, by with_unfolding_all rfl, ⟨by first | exact trivial | exact rfl, rfl, fun hd => by first | (cases hd; done) | (intro th hth; revert hth; simp; rintro (rfl | rfl) <;> simp), by rintro ⟨u, hu, h | h | h | h⟩ <;> simp_all⟩, ?_⟩
      refine ⟨⟨⟨0, _⟩, [⟨.idle, _⟩, ⟨.idle, _⟩], _⟩, by with_unfolding_all rfl, ⟨by first | exact trivial | exact rfl, rfl, fun hd => by first | (cases hd; done) | (intro th hth; revert hth; simp; rintro (rfl | rfl) <;> simp), by rintro ⟨u, hu, h | h | h | h⟩ <;> simp_all⟩, ?_⟩
      exact rfl
      exact ⟨_, _, _, _, .inr rfl⟩
  refine ⟨st, lbl, ev, h, scheduled_of_often (n := 2) ?_ ?_, fun j => (hg j).1, h0 ▸ ⟨_, rfl, .inl rfl⟩, ?_, ?_⟩
  · intro u hu i
    match u, hu with
    | 0, _ => exact (hR true i).imp fun j hj => ⟨hj.1, by have := hj.2; simp only [if_true] at this; simp only [this]⟩
    | 1, _ => exact (hR false i).imp fun j hj => ⟨hj.1, by simpa using hj.2⟩
  · rintro i u hu ⟨a, r, -, hs⟩
    have := (hg i).2.1
    simp only [step, List.getElem?_eq_none (this ▸ hu)] at hs
    cases hs
  · exact fun i => (hR true i).imp fun j hj => ⟨hj.1, (hg j).2.2.1 (by simpa using hj.2)⟩
  · intro ho; obtain ⟨j, -, hj⟩ := ho 0; exact (hg j).2.2.2 hj

/-- The hypotheses of `C114_lock_shared_partial` can be met. -/
example : ∃ st lbl ev, Endless (step) (init 2) st lbl ev ∧ Scheduled (step) Next st lbl ∧ (∀ j, Fair (st j) (lbl j).2) ∧ InShared 1 (st 0) ∧
    (Often fun j => Free (st j)) ∧ ¬ Often fun j => OtherTakes 1 (ev j) := by
  obtain ⟨st, lbl, ev, h, h0, hg, hR⟩ : ∃ st lbl ev, Endless (step) (init 2) st lbl ev ∧ st 0 = ⟨⟨0, []⟩, [⟨.idle, []⟩, ⟨.sharedSpin, []⟩], 0⟩ ∧
      (∀ i, Fair (st i) (lbl i).2 ∧ (st i).ths.length = 2 ∧ (lbl i = (0, .doWork) → Free (st i)) ∧ ¬ OtherTakes 1 (ev i)) ∧
      ∀ k : Bool, Often fun i => if k then lbl i = (0, .doWork) else (lbl i).1 = 1 := by
    refine endless_of_rounds (step := step) (P := fun s => ∃ m v0 v1 f, s = ⟨⟨0, m⟩, [⟨.idle, v0⟩, ⟨.sharedSpin, v1⟩], f⟩ ∨ s = ⟨⟨0, m⟩, [⟨.idle, v0⟩, ⟨.idle, v1⟩], f⟩)
      (good := fun s l es => Fair s l.2 ∧ s.ths.length = 2 ∧ (l = (0, .doWork) → Free s) ∧ ¬ OtherTakes 1 es)
      (R := fun k l _ => if k then l = (0, .doWork) else l.1 = 1) true ?_ (s₀ := init 2) (s := ⟨⟨0, []⟩, [⟨.idle, []⟩, ⟨.sharedSpin, []⟩], 0⟩) ⟨_, exec_of_run (r := (_, _)) (ls := [(1, .callLockShared)]) rfl⟩ ⟨_, _, _, _, .inl rfl⟩
    rintro s ⟨m, v0, v1, f, rfl | rfl⟩
    · refine ⟨[((1, .load 0), []), ((1, .load 0), []), ((1, .go), [.lockedShared 1]), ((1, .callUnlockShared), []), ((1, .go), [.unlockedShared 1]), ((0, .doWork), [.work 0 f])], ?_⟩
      apply Exists.intro
      refine ⟨?_, ?_, fun k => by cases k <;> simp⟩
      refine ⟨⟨⟨0, _⟩, [⟨.idle, _⟩, ⟨.sharedLoad, _⟩], _⟩, by with_unfolding_all rfl, ⟨by first | exact trivial | exact rfl, rfl, fun hd => by first | (cases hd; done) | (intro th hth; revert hth; simp; rintro (rfl | rfl) <;> simp), by rintro ⟨u, hu, h | h | h | h⟩ <;> simp_all⟩, ?_⟩
      refine ⟨⟨⟨0, _⟩, [⟨.idle, _⟩, ⟨.sharedCas 0, _⟩], _⟩, by with_unfolding_all rfl, ⟨by first | exact trivial | exact rfl, rfl, fun hd => by first | (cases hd; done) | (intro th hth; revert hth; simp; rintro (rfl | rfl) <;> simp), by rintro ⟨u, hu, h | h | h | h⟩ <;> simp_all⟩, ?_⟩
      refine ⟨⟨⟨1, _⟩, [⟨.idle, _⟩, ⟨.sharer, _⟩], _⟩, by with_unfolding_all rfl, ⟨by first | exact trivial | exact rfl, rfl, fun hd => by first | (cases hd; done) | (intro th hth; revert hth; simp; rintro (rfl | rfl) <;> simp), by rintro ⟨u, hu, h | h | h | h⟩ <;> simp_all⟩, ?_⟩
      refine ⟨⟨⟨1, _⟩, [⟨.idle, _⟩, ⟨.sharedUnlocking, _⟩], _⟩, by with_unfolding_all rfl, ⟨by first | exact trivial | exact rfl, rfl, fun hd => by first | (cases hd; done) | (intro th hth; revert hth; simp; rintro (rfl | rfl) <;> simp), by rintro ⟨u, hu, h | h | h | h⟩ <;> simp_all⟩, ?_⟩
      refine ⟨⟨⟨0, _⟩, [⟨.idle, _⟩, ⟨.idle, _⟩], _⟩, by with_unfolding_all rfl, ⟨by first | exact trivial | exact rfl, rfl, fun hd => by first | (cases hd; done) | (intro th hth; revert hth; simp; rintro (rfl | rfl) <;> simp), by rintro ⟨u, hu, h | h | h | h⟩ <;> simp_all⟩, ?_⟩
      refine ⟨⟨⟨0, _⟩, [⟨.idle, _⟩, ⟨.idle, _⟩], _⟩, by with_unfolding_all rfl, ⟨by first | exact trivial | exact rfl, rfl, fun hd => by first | (cases hd; done) | (intro th hth; revert hth; simp; rintro (rfl | rfl) <;> simp), by rintro ⟨u, hu, h | h | h | h⟩ <;> simp_all⟩, ?_⟩
      exact rfl
      exact ⟨_, _, _, _, .inr rfl⟩
    · refine ⟨[((0, .doWork), [.work 0 f]), ((1, .doWork), [.work 1 (f + 1)])], ?_⟩
      apply Exists.intro
      refine ⟨?_, ?_, fun k => by cases k <;> simp⟩
      refine ⟨⟨⟨0, _⟩, [⟨.idle, _⟩, ⟨.idle, _⟩], _⟩, by with_unfolding_all rfl, ⟨by first | exact trivial | exact rfl, rfl, fun hd => by first | (cases hd; done) | (intro th hth; revert hth; simp; rintro (rfl | rfl) <;> simp), by rintro ⟨u, hu, h | h | h | h⟩ <;> simp_all⟩, ?_⟩
      refine ⟨⟨⟨0, _⟩, [⟨.idle, _⟩, ⟨.idle, _⟩], _⟩, by with_unfolding_all rfl, ⟨by first | exact trivial | exact rfl, rfl, fun hd => by first | (cases hd; done) | (intro th hth; revert hth; simp; rintro (rfl | rfl) <;> simp), by rintro ⟨u, hu, h | h | h | h⟩ <;> simp_all⟩, ?_⟩
      exact rfl
      exact ⟨_, _, _, _, .inr rfl⟩
  refine ⟨st, lbl, ev, h, scheduled_of_often (n := 2) ?_ ?_, fun j => (hg j).1, h0 ▸ ⟨_, rfl, .inl rfl⟩, ?_, ?_⟩
  · intro u hu i
    match u, hu with
    | 0, _ => exact (hR true i).imp fun j hj => ⟨hj.1, by have := hj.2; simp only [if_true] at this; simp only [this]⟩
    | 1, _ => exact (hR false i).imp fun j hj => ⟨hj.1, by simpa using hj.2⟩
  · rintro i u hu ⟨a, r, -, hs⟩
    have := (hg i).2.1
    simp only [step, List.getElem?_eq_none (this ▸ hu)] at hs
    cases hs
  · exact fun i => (hR true i).imp fun j hj => ⟨hj.1, (hg j).2.2.1 (by simpa using hj.2)⟩
  · intro ho; obtain ⟨j, -, hj⟩ := ho 0; exact (hg j).2.2.2 hj

end Verif.SharedSpin

namespace Verif.WinMutex

open Verif.Spec.Endless

private theorem step_unlAdd (m em v0 : View) (x : Th) (f : Nat) : step ⟨⟨0x80000001, m⟩, false, em, [⟨.unlAdd, v0⟩, x], f⟩ (0, .go) =
    some (⟨⟨1, m ++ v0⟩, false, em, [⟨.unlBts, v0⟩, x], f⟩, [.released 0]) := by
  have h : (!isFlagged 0x80000001 && decide ((0x80000001 : UInt32) > lockFlag)) = true := by decide
  have h2 : (0x80000001 : UInt32) + lockFlag = 1 := by decide
  simp only [step, List.getElem?_cons_zero, h, h2, if_true, List.set_cons_zero]
  rfl

private theorem step_unlBts (m em v0 : View) (x : Th) (f : Nat) : step ⟨⟨1, m⟩, false, em, [⟨.unlBts, v0⟩, x], f⟩ (0, .go) =
    some (⟨⟨0x40000001, m⟩, false, em, [⟨.unlSet, v0⟩, x], f⟩, []) := by
  have h : isFlagged 1 = false := by decide
  have h2 : (1 : UInt32) ||| eventFlag = 0x40000001 := by decide
  simp only [step, List.getElem?_cons_zero, h, h2, List.set_cons_zero]
  rfl

private theorem step_tryBts (m em v0 : View) (x : Th) (f : Nat) : step ⟨⟨0x40000001, m⟩, true, em, [⟨.tryBts .lock, v0⟩, x], f⟩ (0, .go) =
    some (⟨⟨0xC0000001, m⟩, true, em, [⟨.owner, v0 ++ m⟩, x], f⟩, [.acquired 0 .lock .fast]) := by
  have h : isLocked 0x40000001 = false := by decide
  have h2 : (0x40000001 : UInt32) ||| lockFlag = 0xC0000001 := by decide
  simp only [step, List.getElem?_cons_zero, h, h2, List.set_cons_zero]
  rfl

private theorem step_clr (m em v1 : View) (x : Th) (f : Nat) : step ⟨⟨0xC0000001, m⟩, false, em, [x, ⟨.clr .lock 0x40000001, v1⟩], f⟩ (1, .go) =
    some (⟨⟨0xC0000001, m⟩, false, em, [x, ⟨.clr .lock 0xC0000001, v1⟩], f⟩, []) := by
  have h : ¬ ((0xC0000001 : UInt32) = 0x40000001) := by decide
  simp only [step, List.getElem?_cons_zero, List.getElem?_cons_succ, if_neg h, List.set_cons_succ, List.set_cons_zero]

private theorem step_again (m em v1 : View) (x : Th) (f : Nat) : step ⟨⟨0xC0000001, m⟩, false, em, [x, ⟨.clr .lock 0xC0000001, v1⟩], f⟩ (1, .go) =
    some (⟨⟨0x80000001, m⟩, false, em, [x, ⟨.evWait .lock 0xC0000001, v1⟩], f⟩, []) := by
  have h : isLocked 0xC0000001 = true := by decide
  have h2 : clrNew 0xC0000001 = 0x80000001 := by decide
  simp only [step, List.getElem?_cons_zero, List.getElem?_cons_succ, h, h2, if_true, List.set_cons_succ, List.set_cons_zero]
  rfl

private theorem step_wake (m em v1 : View) (x : Th) (f : Nat) {o : UInt32} (ho : o = 0x80000001 ∨ o = 0xC0000001) :
    step ⟨⟨0xC0000001, m⟩, true, em, [x, ⟨.evWait .lock o, v1⟩], f⟩ (1, .go) =
    some (⟨⟨0xC0000001, m⟩, false, em, [x, ⟨.clr .lock 0x40000001, v1 ++ em⟩], f⟩, [.consumed 1]) := by
  have h : clrStart o = 0x40000001 := by rcases ho with rfl | rfl <;> decide
  simp only [step, List.getElem?_cons_zero, List.getElem?_cons_succ, h, if_true, List.set_cons_succ, List.set_cons_zero]

/-- **C114** (mutex of Windows) is false: a thread that unlocks the mutex and locks it again at once, again and again, keeps another one out for ever,
although that one is woken by each `unlock()`. -/
theorem C114_lock_refuted : Starves step (init 2) 2 Fair (InLock 1) (fun es => ∃ p, .acquired 1 .lock p ∈ es)
    [.acquired 0 .lock .fast, .released 0, .signalled 0, .consumed 1] := by
  refine starves_of_rounds (step := step) (P := fun s => ∃ m em v0 v1 f o, (o = 0x80000001 ∨ o = 0xC0000001) ∧
      s = ⟨⟨0x80000001, m⟩, false, em, [⟨.owner, v0⟩, ⟨.evWait .lock o, v1⟩], f⟩) (by decide)
    (s := ⟨⟨0x80000001, []⟩, false, [], [⟨.owner, []⟩, ⟨.evWait .lock 0x80000001, []⟩], 0⟩)
    ⟨_, exec_of_run (r := (_, _)) (ls := [(0, .call .lock), (0, .go), (1, .call .lock), (1, .go), (1, .go), (1, .go)])
      (by decide +kernel : _ = some (_, [.called 0 .lock, .acquired 0 .lock .fast, .called 1 .lock]))⟩ ⟨_, _, _, _, _, _, .inl rfl, rfl⟩
    ⟨_, rfl, .inr (.inr ⟨_, .inr (.inl rfl)⟩)⟩ ?_
  rintro s ⟨m, em, v0, v1, f, o, ho, rfl⟩
  refine ⟨[((0, .callUnlock), []), ((0, .go), [.released 0]), ((0, .go), []), ((0, .go), [.signalled 0]), ((0, .call .lock), [.called 0 .lock]),
    ((0, .go), [.acquired 0 .lock .fast]), ((1, .go), [.consumed 1]), ((1, .go), []), ((1, .go), [])], ?_⟩
  apply Exists.intro
  refine ⟨?_, ?_, by decide, by decide⟩
  · refine ⟨_, rfl, ⟨trivial, by rintro ⟨p, hp⟩; cases p <;> revert hp <;> decide⟩, ?_⟩
    refine ⟨_, step_unlAdd _ _ _ _ _, ⟨trivial, by rintro ⟨p, hp⟩; cases p <;> revert hp <;> decide⟩, ?_⟩
    refine ⟨_, step_unlBts _ _ _ _ _, ⟨trivial, by rintro ⟨p, hp⟩; cases p <;> revert hp <;> decide⟩, ?_⟩
    refine ⟨_, rfl, ⟨trivial, by rintro ⟨p, hp⟩; cases p <;> revert hp <;> decide⟩, ?_⟩
    refine ⟨_, rfl, ⟨trivial, by rintro ⟨p, hp⟩; cases p <;> revert hp <;> decide⟩, ?_⟩
    refine ⟨_, step_tryBts _ _ _ _ _, ⟨trivial, by rintro ⟨p, hp⟩; cases p <;> revert hp <;> decide⟩, ?_⟩
    refine ⟨_, step_wake _ _ _ _ _ ho, ⟨trivial, by rintro ⟨p, hp⟩; cases p <;> revert hp <;> decide⟩, ?_⟩
    refine ⟨_, step_clr _ _ _ _ _, ⟨trivial, by rintro ⟨p, hp⟩; cases p <;> revert hp <;> decide⟩, ?_⟩
    refine ⟨_, step_again _ _ _ _ _, ⟨trivial, by rintro ⟨p, hp⟩; cases p <;> revert hp <;> decide⟩, ?_⟩
    exact rfl
  · exact ⟨_, _, _, _, _, _, .inr rfl, rfl⟩

/-- **C114** (mutex of Windows), what holds: from some time on nobody begins to lock the mutex, and no thread keeps it for ever; then every `lock()` in
progress at any time returns, or throws because the system refuses to wait, in every execution without end in which no thread that has a next step is
forgotten.  Calls of the timed functions that give up, and waits that fail, do not harm.  Missing: the same if others lock the mutex again and again, which
is false. -/
theorem C114_lock_partial (n : Nat) (hn : n < 2 ^ 30) (st : Nat → St) (lbl : Nat → Nat × Act) (ev : Nat → List Ev)
    (h : Endless step (init n) st lbl ev) (hs : Scheduled step Next st lbl) (t i : Nat) (hi : InLock t (st i))
    (k : Nat) (hcalm : ∀ j, k ≤ j → Calm (st j) (lbl j).2) (hfree : ∀ u : Nat, Often fun j => (st j).ths[u]?.map Th.pc ≠ some .owner) :
    ∃ j, i ≤ j ∧ ((∃ p, .acquired t .lock p ∈ ev j) ∨ .threw t .lock ∈ ev j) :=
  lock_ends hn h hs hi hcalm hfree

private theorem step_woken (m em v1 : View) (x : Th) (f : Nat) : step ⟨⟨0x40000001, m⟩, true, em, [x, ⟨.evWait .lock 0x80000001, v1⟩], f⟩ (1, .go) =
    some (⟨⟨0x40000001, m⟩, false, em, [x, ⟨.clr .lock 0x40000001, v1 ++ em⟩], f⟩, [.consumed 1]) := by
  have h : clrStart 0x80000001 = 0x40000001 := by decide
  simp only [step, List.getElem?_cons_zero, List.getElem?_cons_succ, h, if_true, List.set_cons_succ, List.set_cons_zero]

private theorem step_take (m em v1 : View) (x : Th) (f : Nat) : ∃ m' v', step ⟨⟨0x40000001, m⟩, false, em, [x, ⟨.clr .lock 0x40000001, v1⟩], f⟩ (1, .go) =
    some (⟨⟨0x80000000, m'⟩, false, em, [x, ⟨.owner, v'⟩], f⟩, [.acquired 1 .lock .woken]) := by
  have h : isLocked 0x40000001 = false := by decide
  have h2 : clrNew 0x40000001 = 0x80000000 := by decide
  apply Exists.intro
  apply Exists.intro
  simp only [step, List.getElem?_cons_zero, List.getElem?_cons_succ, h, h2, if_true, List.set_cons_succ, List.set_cons_zero]
  rfl

private theorem step_last (m em v1 : View) (x : Th) (f : Nat) : ∃ m' v', step ⟨⟨0x80000000, m⟩, false, em, [x, ⟨.unlAdd, v1⟩], f⟩ (1, .go) =
    some (⟨⟨0, m'⟩, false, em, [x, ⟨.idle, v'⟩], f⟩, [.released 1]) := by
  have h : (!isFlagged 0x80000000 && decide ((0x80000000 : UInt32) > lockFlag)) = false := by decide
  have h2 : (0x80000000 : UInt32) + lockFlag = 0 := by decide
  apply Exists.intro
  apply Exists.intro
  simp only [step, List.getElem?_cons_zero, List.getElem?_cons_succ, h, h2, List.set_cons_succ, List.set_cons_zero]
  rfl

/-- The hypotheses of `C114_lock_partial` can be met: thread 0 owns the mutex, thread 1 sleeps in `lock()`; each locks it once and then does something else. -/
example : ∃ st lbl ev, Endless step (init 2) st lbl ev ∧ Scheduled step Next st lbl ∧ InLock 1 (st 0) ∧ (st 0).ths[0]? = some ⟨.owner, []⟩ ∧
    (∀ j, Calm (st j) (lbl j).2) ∧ ∀ u : Nat, Often fun j => (st j).ths[u]?.map Th.pc ≠ some .owner := by
  obtain ⟨st, lbl, ev, h, h0, hg, hR⟩ : ∃ st lbl ev, Endless step (init 2) st lbl ev ∧
      st 0 = ⟨⟨0x80000001, []⟩, false, [], [⟨.owner, []⟩, ⟨.evWait .lock 0x80000001, []⟩], 0⟩ ∧
      (∀ i, Calm (st i) (lbl i).2 ∧ (st i).ths.length = 2 ∧ ((lbl i).2 = .doWork → ∀ th ∈ (st i).ths, th.pc = .idle)) ∧
      ∀ k : Fin 2, Often fun i => (lbl i).1 = k.val ∧ (lbl i).2 = .doWork := by
    refine endless_of_rounds (κ := Fin 2) (step := step)
      (P := fun s => s = ⟨⟨0x80000001, []⟩, false, [], [⟨.owner, []⟩, ⟨.evWait .lock 0x80000001, []⟩], 0⟩ ∨
        ∃ m em v0 v1 f, s = ⟨⟨0, m⟩, false, em, [⟨.idle, v0⟩, ⟨.idle, v1⟩], f⟩)
      (good := fun s l _ => Calm s l.2 ∧ s.ths.length = 2 ∧ (l.2 = .doWork → ∀ th ∈ s.ths, th.pc = .idle))
      (R := fun k l _ => l.1 = k.val ∧ l.2 = .doWork) 0 ?_ (s₀ := init 2)
      (s := ⟨⟨0x80000001, []⟩, false, [], [⟨.owner, []⟩, ⟨.evWait .lock 0x80000001, []⟩], 0⟩)
      ⟨_, exec_of_run (r := (_, _)) (ls := [(0, .call .lock), (0, .go), (1, .call .lock), (1, .go), (1, .go), (1, .go)])
        (by decide +kernel : _ = some (_, [.called 0 .lock, .acquired 0 .lock .fast, .called 1 .lock]))⟩ (.inl rfl)
    have tail : ∀ m em v0 v1 f, ∃ s', Spec.Endless.Path step (fun s l _ => Calm s l.2 ∧ s.ths.length = 2 ∧ (l.2 = .doWork → ∀ th ∈ s.ths, th.pc = .idle))
        ⟨⟨0, m⟩, false, em, [⟨.idle, v0⟩, ⟨.idle, v1⟩], f⟩ [((0, .doWork), [.work 0 f]), ((1, .doWork), [.work 1 (f + 1)])] s' ∧
        ∃ m em v0 v1 f, s' = ⟨⟨0, m⟩, false, em, [⟨.idle, v0⟩, ⟨.idle, v1⟩], f⟩ := by
      intro m em v0 v1 f
      apply Exists.intro
      refine ⟨?_, ?_⟩
      · refine ⟨_, rfl, ⟨trivial, rfl, fun _ => by simp⟩, ?_⟩
        refine ⟨_, rfl, ⟨trivial, rfl, fun _ => by simp⟩, ?_⟩
        exact rfl
      · exact ⟨_, _, _, _, _, rfl⟩
    rintro s (rfl | ⟨m, em, v0, v1, f, rfl⟩)
    · obtain ⟨m1, v1, e1⟩ := step_take [] [] [] ⟨.idle, []⟩ 0
      obtain ⟨m2, v2, e2⟩ := step_last m1 [] v1 ⟨.idle, []⟩ 0
      obtain ⟨s', hp, hs'⟩ := tail m2 [] [] v2 0
      refine ⟨[((0, .callUnlock), []), ((0, .go), [.released 0]), ((0, .go), []), ((0, .go), [.signalled 0]), ((1, .go), [.consumed 1]),
        ((1, .go), [.acquired 1 .lock .woken]), ((1, .callUnlock), []), ((1, .go), [.released 1]), ((0, .doWork), [.work 0 0]), ((1, .doWork), [.work 1 1])],
        s', ?_, .inr hs', by intro k; match k with | 0 => simp | 1 => simp⟩
      refine ⟨_, rfl, ⟨trivial, rfl, fun h => by cases h⟩, ?_⟩
      refine ⟨_, step_unlAdd _ _ _ _ _, ⟨trivial, rfl, fun h => by cases h⟩, ?_⟩
      refine ⟨_, step_unlBts _ _ _ _ _, ⟨trivial, rfl, fun h => by cases h⟩, ?_⟩
      refine ⟨_, rfl, ⟨trivial, rfl, fun h => by cases h⟩, ?_⟩
      refine ⟨_, step_woken _ _ _ _ _, ⟨trivial, rfl, fun h => by cases h⟩, ?_⟩
      refine ⟨_, e1, ⟨trivial, rfl, fun h => by cases h⟩, ?_⟩
      refine ⟨_, rfl, ⟨trivial, rfl, fun h => by cases h⟩, ?_⟩
      refine ⟨_, e2, ⟨trivial, rfl, fun h => by cases h⟩, ?_⟩
      exact hp
    · obtain ⟨s', hp, hs'⟩ := tail m em v0 v1 f
      exact ⟨_, s', hp, .inr hs', by intro k; match k with | 0 => simp | 1 => simp⟩
  refine ⟨st, lbl, ev, h, scheduled_of_often (n := 2) (fun u hu i => ?_) (fun i u hu hr => ?_), ?_, by rw [h0]; rfl, fun j => (hg j).1, fun u i => ?_⟩
  · obtain ⟨j, hj, e, _⟩ := hR ⟨u, hu⟩ i; exact ⟨j, hj, e⟩
  · obtain ⟨a, r, _, hst⟩ := hr
    have : (st i).ths[u]? = none := List.getElem?_eq_none (by rw [(hg i).2.1]; omega)
    simp [step, this] at hst
  · exact ⟨_, by rw [h0]; rfl, .inr (.inr ⟨_, .inr (.inl rfl)⟩)⟩
  · obtain ⟨j, hj, _, e⟩ := hR 0 i
    refine ⟨j, hj, fun ho => ?_⟩
    obtain ⟨th, hth, ht⟩ := Option.map_eq_some_iff.mp ho
    have := (hg j).2.2 e th (List.mem_of_getElem? hth)
    rw [ht] at this
    cases this

end Verif.WinMutex

namespace Verif.AutoFutex

open Verif.Spec.Endless

/-- **C114** (`auto_reset_event` over futexes) is false: a thread in `wait()` can be passed over for ever although `post()` wakes it again and again: each
time another wait takes the signal before it. -/
theorem C114_wait_refuted : Starves step (init 2) 2 Fair (Sleeps 1) (fun es => .waitDone 1 ∈ es) [.posted 0, .postDone 0, .waitDone 0] := by
  refine starves_of_rounds (step := step) (P := fun s => ∃ m v0 v1 f, s = ⟨⟨1, m⟩, [⟨.idle, v0⟩, ⟨.asleep .wait, v1⟩], f⟩) (by decide)
    (s := ⟨⟨1, []⟩, [⟨.idle, []⟩, ⟨.asleep .wait, []⟩], 0⟩) ⟨_, exec_of_run (r := (_, _)) (ls := [(1, .call .wait), (1, .load 0), (1, .go), (1, .go), (1, .go), (1, .go)]) rfl⟩ ⟨_, _, _, _, rfl⟩ ⟨_, rfl, rfl⟩ ?_
  rintro s ⟨m, v0, v1, f, rfl⟩
  refine ⟨[((0, .call .post), [.called 0 .post]), ((0, .load 1), []), ((0, .go), [.posted 0]), ((0, .wake 1), [.postDone 0]), ((0, .call .wait), [.called 0 .wait]),
      ((0, .load 0x400001), []), ((0, .go), [.waitDone 0]), ((1, .load 1), []), ((1, .go), [])], ?_⟩
  apply Exists.intro
  refine ⟨?_, ?_, by decide, by decide⟩
  · refine ⟨⟨⟨1, _⟩, [⟨.postLoad, _⟩, ⟨.asleep .wait, _⟩], _⟩, by with_unfolding_all rfl, ⟨by first | exact trivial | exact rfl, by decide⟩, ?_⟩
    refine ⟨⟨⟨1, _⟩, [⟨.postLoop 1, _⟩, ⟨.asleep .wait, _⟩], _⟩, by with_unfolding_all rfl, ⟨by first | exact trivial | exact rfl, by decide⟩, ?_⟩
    refine ⟨⟨⟨0x400001, _⟩, [⟨.postSignal, _⟩, ⟨.asleep .wait, _⟩], _⟩, by with_unfolding_all rfl, ⟨by first | exact trivial | exact rfl, by decide⟩, ?_⟩
    refine ⟨⟨⟨0x400001, _⟩, [⟨.idle, _⟩, ⟨.reload .wait, _⟩], _⟩, by with_unfolding_all rfl, ⟨by first | exact trivial | exact rfl, by decide⟩, ?_⟩
    refine ⟨⟨⟨0x400001, _⟩, [⟨.tryLoad .wait, _⟩, ⟨.reload .wait, _⟩], _⟩, by with_unfolding_all rfl, ⟨by first | exact trivial | exact rfl, by decide⟩, ?_⟩
    refine ⟨⟨⟨0x400001, _⟩, [⟨.tryLoop .wait 0x400001, _⟩, ⟨.reload .wait, _⟩], _⟩, by with_unfolding_all rfl, ⟨by first | exact trivial | exact rfl, by decide⟩, ?_⟩
    refine ⟨⟨⟨1, _⟩, [⟨.idle, _⟩, ⟨.reload .wait, _⟩], _⟩, by with_unfolding_all rfl, ⟨by first | exact trivial | exact rfl, by decide⟩, ?_⟩
    refine ⟨⟨⟨1, _⟩, [⟨.idle, _⟩, ⟨.sleepCall .wait 1, _⟩], _⟩, by with_unfolding_all rfl, ⟨by first | exact trivial | exact rfl, by decide⟩, ?_⟩
    refine ⟨⟨⟨1, _⟩, [⟨.idle, _⟩, ⟨.asleep .wait, _⟩], _⟩, by with_unfolding_all rfl, ⟨by first | exact trivial | exact rfl, by decide⟩, ?_⟩
    exact rfl
  · exact ⟨_, _, _, _, rfl⟩

/-- **C114** (`auto_reset_event` over futexes), what holds: from some time on nobody calls a waiting function, and `post()` is called again and again; then
every `wait()` in progress at any time returns, in every execution without end of at most 1023 threads in which no thread that has a next step is forgotten.
It does not matter whom `futex_signal` wakes, that timed waits take posts or time out, and that threads wake up without a reason.  Missing: the same if
others wait again and again, which is false. -/
theorem C114_wait_partial (n : Nat) (hn : n ≤ 1023) (st : Nat → St) (lbl : Nat → Nat × Act) (ev : Nat → List Ev)
    (h : Endless step (init n) st lbl ev) (hs : Scheduled step Next st lbl) (t i : Nat) (hi : InWait t (st i))
    (k : Nat) (hcalm : ∀ j, k ≤ j → Calm (st j) (lbl j).2) (hpost : Often fun j => (lbl j).2 = .call .post) : ∃ j, i ≤ j ∧ .waitDone t ∈ ev j :=
  wait_ends hn h hs hi hcalm hpost

/-- The hypotheses of `C114_wait_partial` can be met: thread 1 sleeps in `wait()`, thread 0 posts again and again. -/
example : ∃ st lbl ev, Endless step (init 2) st lbl ev ∧ Scheduled step Next st lbl ∧ InWait 1 (st 0) ∧ Sleeps 1 (st 0) ∧
    (∀ j, Calm (st j) (lbl j).2) ∧ Often fun j => (lbl j).2 = .call .post := by
  obtain ⟨st, lbl, ev, h, h0, hg, hR⟩ : ∃ st lbl ev, Endless step (init 2) st lbl ev ∧
      st 0 = ⟨⟨1, []⟩, [⟨.idle, []⟩, ⟨.asleep .wait, []⟩], 0⟩ ∧ (∀ i, Calm (st i) (lbl i).2 ∧ (st i).ths.length = 2) ∧
      ∀ k : Fin 2, Often fun i => (lbl i).1 = k.val ∧ (k = 0 → (lbl i).2 = .call .post) := by
    refine endless_of_rounds (κ := Fin 2) (step := step)
      (P := fun s => s = ⟨⟨1, []⟩, [⟨.idle, []⟩, ⟨.asleep .wait, []⟩], 0⟩ ∨ ∃ m v0 v1 f, s = ⟨⟨0x400000, m⟩, [⟨.idle, v0⟩, ⟨.idle, v1⟩], f⟩)
      (good := fun s l _ => Calm s l.2 ∧ s.ths.length = 2) (R := fun k l _ => l.1 = k.val ∧ (k = 0 → l.2 = .call .post)) 0 ?_ (s₀ := init 2)
      (s := ⟨⟨1, []⟩, [⟨.idle, []⟩, ⟨.asleep .wait, []⟩], 0⟩)
      ⟨_, exec_of_run (r := (_, _)) (ls := [(1, .call .wait), (1, .load 0), (1, .go), (1, .go), (1, .go), (1, .go)]) rfl⟩ (.inl rfl)
    rintro s (rfl | ⟨m, v0, v1, f, rfl⟩)
    · refine ⟨[((0, .call .post), [.called 0 .post]), ((0, .load 1), []), ((0, .go), [.posted 0]), ((0, .wake 1), [.postDone 0]), ((1, .load 0x400001), []),
        ((1, .go), [.waitDone 1]), ((0, .call .post), [.called 0 .post]), ((0, .load 0), []), ((0, .go), [.posted 0, .postDone 0])], ?_⟩
      apply Exists.intro
      refine ⟨?_, .inr ?_, by intro k; match k with | 0 => simp | 1 => simp⟩
      · refine ⟨⟨⟨1, _⟩, [⟨.postLoad, _⟩, ⟨.asleep .wait, _⟩], _⟩, by with_unfolding_all rfl, ⟨rfl, rfl⟩, ?_⟩
        refine ⟨⟨⟨1, _⟩, [⟨.postLoop 1, _⟩, ⟨.asleep .wait, _⟩], _⟩, by with_unfolding_all rfl, ⟨rfl, rfl⟩, ?_⟩
        refine ⟨⟨⟨0x400001, _⟩, [⟨.postSignal, _⟩, ⟨.asleep .wait, _⟩], _⟩, by with_unfolding_all rfl, ⟨trivial, rfl⟩, ?_⟩
        refine ⟨⟨⟨0x400001, _⟩, [⟨.idle, _⟩, ⟨.reload .wait, _⟩], _⟩, by with_unfolding_all rfl, ⟨trivial, rfl⟩, ?_⟩
        refine ⟨⟨⟨0x400001, _⟩, [⟨.idle, _⟩, ⟨.cas .wait 0x400001, _⟩], _⟩, by with_unfolding_all rfl, ⟨rfl, rfl⟩, ?_⟩
        refine ⟨⟨⟨0, _⟩, [⟨.idle, _⟩, ⟨.idle, _⟩], _⟩, by with_unfolding_all rfl, ⟨trivial, rfl⟩, ?_⟩
        refine ⟨⟨⟨0, _⟩, [⟨.postLoad, _⟩, ⟨.idle, _⟩], _⟩, by with_unfolding_all rfl, ⟨rfl, rfl⟩, ?_⟩
        refine ⟨⟨⟨0, _⟩, [⟨.postLoop 0, _⟩, ⟨.idle, _⟩], _⟩, by with_unfolding_all rfl, ⟨rfl, rfl⟩, ?_⟩
        refine ⟨⟨⟨0x400000, _⟩, [⟨.idle, _⟩, ⟨.idle, _⟩], _⟩, by with_unfolding_all rfl, ⟨trivial, rfl⟩, ?_⟩
        exact rfl
      · exact ⟨_, _, _, _, rfl⟩
    · refine ⟨[((0, .call .post), [.called 0 .post]), ((0, .load 0x400000), []), ((0, .go), [.postDone 0]), ((1, .doWork), [.work 1 f])], ?_⟩
      apply Exists.intro
      refine ⟨?_, .inr ?_, by intro k; match k with | 0 => simp | 1 => simp⟩
      · refine ⟨⟨⟨0x400000, _⟩, [⟨.postLoad, _⟩, ⟨.idle, _⟩], _⟩, by with_unfolding_all rfl, ⟨rfl, rfl⟩, ?_⟩
        refine ⟨⟨⟨0x400000, _⟩, [⟨.postLoop 0x400000, _⟩, ⟨.idle, _⟩], _⟩, by with_unfolding_all rfl, ⟨rfl, rfl⟩, ?_⟩
        refine ⟨⟨⟨0x400000, _⟩, [⟨.idle, _⟩, ⟨.idle, _⟩], _⟩, by with_unfolding_all rfl, ⟨trivial, rfl⟩, ?_⟩
        refine ⟨⟨⟨0x400000, _⟩, [⟨.idle, _⟩, ⟨.idle, _⟩], _⟩, rfl, ⟨trivial, rfl⟩, ?_⟩
        exact rfl
      · exact ⟨_, _, _, _, rfl⟩
  refine ⟨st, lbl, ev, h, scheduled_of_often (n := 2) (fun u hu i => ?_) (fun i u hu hr => ?_), ⟨_, by rw [h0]; rfl, rfl⟩, ⟨_, by rw [h0]; rfl, rfl⟩,
    fun j => (hg j).1, fun i => ?_⟩
  · obtain ⟨j, hj, e, _⟩ := hR ⟨u, hu⟩ i; exact ⟨j, hj, e⟩
  · obtain ⟨a, r, _, hst⟩ := hr
    have : (st i).ths[u]? = none := List.getElem?_eq_none (by rw [(hg i).2]; omega)
    simp [step, this] at hst
  · obtain ⟨j, hj, _, e⟩ := hR 0 i; exact ⟨j, hj, e rfl⟩

end Verif.AutoFutex

namespace Verif.ManualFutex

open Verif.Spec.Endless

/-- **C114** (`manual_reset_event` over futexes) is false if the event is reset again: a thread in `wait()` can sleep for ever although the event is set, and
the thread is woken, again and again. -/
theorem C114_wait_refuted : Starves step (init 2) 2 Fair (Sleeps 1) (fun es => .waitDone 1 ∈ es) [.wasSet 0, .setDone 0, .resetDone 0] := by
  refine starves_of_rounds (step := step) (P := fun s => ∃ m v0 v1 f k, s = ⟨⟨2, m⟩, [⟨.idle, v0⟩, ⟨.asleep .wait 0, v1⟩], f, k⟩) (by decide)
    (s := ⟨⟨2, []⟩, [⟨.idle, []⟩, ⟨.asleep .wait 0, []⟩], 0, 0⟩) ⟨_, exec_of_run (r := (_, _)) (ls := [(1, .call .wait), (1, .go), (1, .go), (1, .go)]) rfl⟩ ⟨_, _, _, _, _, rfl⟩ ⟨_, _, _, rfl, rfl⟩ ?_
  rintro s ⟨m, v0, v1, f, k, rfl⟩
  refine ⟨[((0, .call .set), [.called 0 .set]), ((0, .go), [.wasSet 0]), ((0, .go), [.setDone 0]), ((0, .call .reset), [.called 0 .reset]), ((0, .go), [.resetDone 0]),
      ((1, .load 2), []), ((1, .go), [])], ?_⟩
  apply Exists.intro
  refine ⟨?_, ?_, by decide, by decide⟩
  · refine ⟨⟨⟨2, _⟩, [⟨.setOr, _⟩, ⟨.asleep .wait 0, _⟩], _, _⟩, by with_unfolding_all rfl, ⟨by first | exact trivial | exact rfl, by decide⟩, ?_⟩
    refine ⟨⟨⟨3, _⟩, [⟨.setWake, _⟩, ⟨.asleep .wait 0, _⟩], _, _⟩, by with_unfolding_all rfl, ⟨by first | exact trivial | exact rfl, by decide⟩, ?_⟩
    refine ⟨⟨⟨3, _⟩, [⟨.idle, _⟩, ⟨.reload .wait 0, _⟩], _, _⟩, by with_unfolding_all rfl, ⟨by first | exact trivial | exact rfl, by decide⟩, ?_⟩
    refine ⟨⟨⟨3, _⟩, [⟨.resetAnd, _⟩, ⟨.reload .wait 0, _⟩], _, _⟩, by with_unfolding_all rfl, ⟨by first | exact trivial | exact rfl, by decide⟩, ?_⟩
    refine ⟨⟨⟨2, _⟩, [⟨.idle, _⟩, ⟨.reload .wait 0, _⟩], _, _⟩, by with_unfolding_all rfl, ⟨by first | exact trivial | exact rfl, by decide⟩, ?_⟩
    refine ⟨⟨⟨2, _⟩, [⟨.idle, _⟩, ⟨.sleepCall .wait 2 0, _⟩], _, _⟩, by with_unfolding_all rfl, ⟨by first | exact trivial | exact rfl, by decide⟩, ?_⟩
    refine ⟨⟨⟨2, _⟩, [⟨.idle, _⟩, ⟨.asleep .wait 0, _⟩], _, _⟩, by with_unfolding_all rfl, ⟨by first | exact trivial | exact rfl, by decide⟩, ?_⟩
    exact rfl
  · exact ⟨_, _, _, _, _, rfl⟩

/-- **C114** (`manual_reset_event` over futexes), what holds: if `set()` takes effect in some step and `reset()` never does afterwards, every `wait()` in
progress at any time returns, in every execution without end in which the scheduler does not forget a thread and loads read the newest value, whatever
else happens (also spurious returns of the system call).  Missing: the same if the event is reset, which is false. -/
theorem C114_wait_partial (n : Nat) (hn : n < 2147483648) (st : Nat → St) (lbl : Nat → Nat × Act) (ev : Nat → List Ev) (h : Endless step (init n) st lbl ev)
    (hs : Scheduled step Next st lbl) (hl : ∀ j, Newest (st j) (lbl j).2) (t i : Nat) (hi : InWait t (st i)) (u k : Nat) (hset : .wasSet u ∈ ev k)
    (hno : ∀ j, k ≤ j → ∀ u, .resetDone u ∉ ev j) : ∃ j, i ≤ j ∧ .waitDone t ∈ ev j := by
  refine Classical.byContradiction fun hn' => ?_
  have never : ∀ j, i ≤ j → .waitDone t ∉ ev j := fun j hj hg => hn' ⟨j, hj, hg⟩
  have inl : ∀ j, i ≤ j → InWait t (st j) := from_on hi fun j hj hin => stays_in (u := (lbl j).1) (a := (lbl j).2) (h.next j) hin (never j hj)
  have set : ∀ j, k + 1 ≤ j → isSet (st j).word.val = true :=
    from_on (p := fun j => isSet (st j).word.val = true) (set_now (u := (lbl k).1) (a := (lbl k).2) (h.next k) hset)
      fun j hj hw => stays_set (u := (lbl j).1) (a := (lbl j).2) (h.next j) hw (hno j (by omega) _)
  have inv : ∀ j, ∃ tr, Inv tr (st j) := fun j => (h.reachable j).imp fun tr hr => inv_exec hn hr
  have fresh : ∀ j, Fresh (st j) := fun j => fresh_reach (h.reachable j)
  have ok : ∀ j, ∀ th, (st j).ths[t]? = some th → ∀ k e b, th.pc = .sleepCall k e b → isSet e = false := by
    intro j th hth k e b hp
    obtain ⟨tr, I⟩ := inv j
    have := I.loc t th hth
    rw [hp] at this
    exact this.1
  obtain ⟨j, hj, hg⟩ := hs.lead (fun j => rank t (st j)) (fun j u => Helps t (st j) u) (fun j => .waitDone t ∈ ev j) (max i (k + 1))
    (fun j hj _ => (inv j).elim fun tr I => helper I (inl j (by omega)) (set j (by omega)))
    (fun j u hj _ hu => helper_ready (fresh j) (inl j (by omega)) hu)
    (fun j u hj hg hu hb => helper_step (u := u) (a := (lbl j).2) (by rw [← hb]; exact h.next j) (inl j (by omega)) hu (set j (by omega)) (ok j) (hl j) hg)
    (fun j u hj hg hu hb => helper_keep (w := (lbl j).1) (a := (lbl j).2) (h.next j) (inl j (by omega)) hu (set j (by omega)) (ok j) (hl j) hg hb)
  exact hn' ⟨j, by omega, hg⟩


/-- The hypotheses of `C114_wait_partial` can be met: a thread is woken by `set()`. -/
example : ∃ st lbl ev, Endless step (init 2) st lbl ev ∧ Scheduled step Next st lbl ∧ (∀ j, Newest (st j) (lbl j).2) ∧ InWait 1 (st 0) ∧
    Sleeps 1 (st 0) ∧ (∃ k, .wasSet 0 ∈ ev k) ∧ ∀ j u, .resetDone u ∉ ev j := by
  obtain ⟨st, lbl, ev, h, h0, hg, hR⟩ : ∃ st lbl ev, Endless step (init 2) st lbl ev ∧ st 0 = ⟨⟨2, []⟩, [⟨.idle, []⟩, ⟨.asleep .wait 0, []⟩], 0, 0⟩ ∧
      (∀ i, Newest (st i) (lbl i).2 ∧ (st i).ths.length = 2 ∧ ∀ u, .resetDone u ∉ ev i) ∧
      ∀ k : Fin 3, Often fun i => if k = 0 then (lbl i).1 = 0 else if k = 1 then (lbl i).1 = 1 else .wasSet 0 ∈ ev i := by
    refine endless_of_rounds (κ := Fin 3) (step := step)
      (P := fun s => (∃ m v0 v1 f, s = ⟨⟨2, m⟩, [⟨.idle, v0⟩, ⟨.asleep .wait 0, v1⟩], f, 0⟩) ∨ ∃ m v0 v1 f k, s = ⟨⟨1, m⟩, [⟨.idle, v0⟩, ⟨.idle, v1⟩], f, k⟩)
      (good := fun s l es => Newest s l.2 ∧ s.ths.length = 2 ∧ ∀ u, .resetDone u ∉ es)
      (R := fun k l es => if k = 0 then l.1 = 0 else if k = 1 then l.1 = 1 else .wasSet 0 ∈ es) 0 ?_ (s₀ := init 2)
      (s := ⟨⟨2, []⟩, [⟨.idle, []⟩, ⟨.asleep .wait 0, []⟩], 0, 0⟩)
      ⟨_, exec_of_run (r := (_, _)) (ls := [(1, .call .wait), (1, .go), (1, .go), (1, .go)]) rfl⟩ (.inl ⟨_, _, _, _, rfl⟩)
    rintro s (⟨m, v0, v1, f, rfl⟩ | ⟨m, v0, v1, f, k, rfl⟩)
    · refine ⟨[((0, .call .set), [.called 0 .set]), ((0, .go), [.wasSet 0]), ((0, .go), [.setDone 0]), ((1, .load 3), []), ((1, .go), [.waitDone 1])], ?_⟩
      apply Exists.intro
      refine ⟨?_, ?_, by intro k; match k with | 0 => simp | 1 => simp | 2 => simp⟩
      refine ⟨⟨⟨2, _⟩, [⟨.setOr, _⟩, ⟨.asleep .wait 0, _⟩], _, _⟩, by with_unfolding_all rfl, ⟨trivial, rfl, by simp⟩, ?_⟩
      refine ⟨⟨⟨3, _⟩, [⟨.setWake, _⟩, ⟨.asleep .wait 0, _⟩], _, _⟩, by with_unfolding_all rfl, ⟨trivial, rfl, by simp⟩, ?_⟩
      refine ⟨⟨⟨3, _⟩, [⟨.idle, _⟩, ⟨.reload .wait 0, _⟩], _, _⟩, by with_unfolding_all rfl, ⟨trivial, rfl, by simp⟩, ?_⟩
      refine ⟨⟨⟨3, _⟩, [⟨.idle, _⟩, ⟨.sub .wait, _⟩], _, _⟩, by with_unfolding_all rfl, ⟨rfl, rfl, by simp⟩, ?_⟩
      refine ⟨⟨⟨1, _⟩, [⟨.idle, _⟩, ⟨.idle, _⟩], _, _⟩, by with_unfolding_all rfl, ⟨trivial, rfl, by simp⟩, ?_⟩
      exact rfl
      exact .inr ⟨_, _, _, _, _, rfl⟩
    · refine ⟨[((0, .call .set), [.called 0 .set]), ((0, .go), [.wasSet 0, .setDone 0]), ((1, .call .wait), [.called 1 .wait]), ((1, .go), [.waitDone 1])], ?_⟩
      apply Exists.intro
      refine ⟨?_, ?_, by intro k; match k with | 0 => simp | 1 => simp | 2 => simp⟩
      refine ⟨⟨⟨1, _⟩, [⟨.setOr, _⟩, ⟨.idle, _⟩], _, _⟩, by with_unfolding_all rfl, ⟨trivial, rfl, by simp⟩, ?_⟩
      refine ⟨⟨⟨1, _⟩, [⟨.idle, _⟩, ⟨.idle, _⟩], _, _⟩, by with_unfolding_all rfl, ⟨trivial, rfl, by simp⟩, ?_⟩
      refine ⟨⟨⟨1, _⟩, [⟨.idle, _⟩, ⟨.tryLoad .wait, _⟩], _, _⟩, by with_unfolding_all rfl, ⟨trivial, rfl, by simp⟩, ?_⟩
      refine ⟨⟨⟨1, _⟩, [⟨.idle, _⟩, ⟨.idle, _⟩], _, _⟩, by with_unfolding_all rfl, ⟨trivial, rfl, by simp⟩, ?_⟩
      exact rfl
      exact .inr ⟨_, _, _, _, _, rfl⟩
  refine ⟨st, lbl, ev, h, scheduled_of_often (n := 2) ?_ ?_, fun j => (hg j).1, h0 ▸ ⟨_, rfl, rfl⟩, h0 ▸ ⟨_, _, _, rfl, rfl⟩,
    (hR 2 0).imp fun j hj => by simpa using hj.2, fun j => (hg j).2.2⟩
  · intro u hu i
    match u, hu with
    | 0, _ => exact (hR 0 i).imp fun j hj => ⟨hj.1, by simpa using hj.2⟩
    | 1, _ => exact (hR 1 i).imp fun j hj => ⟨hj.1, by simpa using hj.2⟩
  · rintro i u hu ⟨a, r, -, hs⟩
    have := (hg i).2.1
    simp only [step, List.getElem?_eq_none (this ▸ hu)] at hs
    cases hs

end Verif.ManualFutex

namespace Verif.Monitor

open Verif.Spec.Endless
open Verif.Atomic


/-- **C114** (`auto_reset_event`, emulation) is false: as over futexes. Every attempt of the passed over thread to lock `m_mutex` succeeds. -/
theorem C114_auto_event_refuted : Starves (step (autoEvent noRewait)) (init (autoEvent noRewait) 2) 2 (fun _ _ => True) (fun s => s.ths[1]? = some (.asleep .wait))
    (fun es => ∃ b, Ev.ret 1 (.acq .wait) b ∈ es) [.ret 0 (.sig .post) true, .ret 0 (.acq .wait) true] := by
  refine starves_of_rounds (step := step (autoEvent noRewait)) (P := fun s => s = ⟨false, none, [.idle, .asleep .wait]⟩) (by decide)
    (s := ⟨false, none, [.idle, .asleep .wait]⟩) ⟨_, exec_of_run (r := (_, _)) (ls := [(1, .call (.acq .wait)), (1, .go), (1, .go)]) rfl⟩ rfl rfl ?_
  rintro s rfl
  refine ⟨[((0, .call (.sig .post)), [.called 0 (.sig .post)]), ((0, .go), []), ((0, .go), []), ((0, .wake 1 false), []), ((0, .go), [.ret 0 (.sig .post) true]),
    ((0, .call (.acq .wait)), [.called 0 (.acq .wait)]), ((0, .go), []), ((0, .go), []), ((0, .go), []), ((0, .go), [.ret 0 (.acq .wait) true]),
    ((1, .go), []), ((1, .go), [])], ?_⟩
  apply Exists.intro
  refine ⟨?_, ?_, by decide, by decide⟩
  · refine ⟨⟨false, none, [.wantSig .post, .asleep .wait]⟩, rfl, ⟨trivial, by rintro ⟨b, hb⟩; revert hb; cases b <;> decide⟩, ?_⟩
    refine ⟨⟨false, some 0, [.sig .post, .asleep .wait]⟩, rfl, ⟨trivial, by rintro ⟨b, hb⟩; revert hb; cases b <;> decide⟩, ?_⟩
    refine ⟨⟨true, some 0, [.notifying .post false, .asleep .wait]⟩, rfl, ⟨trivial, by rintro ⟨b, hb⟩; revert hb; cases b <;> decide⟩, ?_⟩
    refine ⟨⟨true, some 0, [.leave (.sig .post) true, .woken .wait false]⟩, rfl, ⟨trivial, by rintro ⟨b, hb⟩; revert hb; cases b <;> decide⟩, ?_⟩
    refine ⟨⟨true, none, [.idle, .woken .wait false]⟩, rfl, ⟨trivial, by rintro ⟨b, hb⟩; revert hb; cases b <;> decide⟩, ?_⟩
    refine ⟨⟨true, none, [.want .wait, .woken .wait false]⟩, rfl, ⟨trivial, by rintro ⟨b, hb⟩; revert hb; cases b <;> decide⟩, ?_⟩
    refine ⟨⟨true, some 0, [.inside .wait, .woken .wait false]⟩, rfl, ⟨trivial, by rintro ⟨b, hb⟩; revert hb; cases b <;> decide⟩, ?_⟩
    refine ⟨⟨true, some 0, [.taking .wait false, .woken .wait false]⟩, rfl, ⟨trivial, by rintro ⟨b, hb⟩; revert hb; cases b <;> decide⟩, ?_⟩
    refine ⟨⟨false, some 0, [.leave (.acq .wait) true, .woken .wait false]⟩, rfl, ⟨trivial, by rintro ⟨b, hb⟩; revert hb; cases b <;> decide⟩, ?_⟩
    refine ⟨⟨false, none, [.idle, .woken .wait false]⟩, rfl, ⟨trivial, by rintro ⟨b, hb⟩; revert hb; cases b <;> decide⟩, ?_⟩
    refine ⟨⟨false, some 1, [.idle, .inside .wait]⟩, rfl, ⟨trivial, by rintro ⟨b, hb⟩; revert hb; cases b <;> decide⟩, ?_⟩
    refine ⟨⟨false, none, [.idle, .asleep .wait]⟩, rfl, ⟨trivial, by rintro ⟨b, hb⟩; revert hb; cases b <;> decide⟩, ?_⟩
    exact rfl
  · exact rfl

/-- **C114** (`semaphore`, emulation) is false. -/
theorem C114_semaphore_refuted : Starves (step (semaphore noRewait 0)) (init (semaphore noRewait 0) 2) 2 (fun _ _ => True) (fun s => s.ths[1]? = some (.asleep .wait))
    (fun es => ∃ b, Ev.ret 1 (.acq .wait) b ∈ es) [.ret 0 (.sig .post) true, .ret 0 (.acq .wait) true] := by
  refine starves_of_rounds (step := step (semaphore noRewait 0)) (P := fun s => s = ⟨0, none, [.idle, .asleep .wait]⟩) (by decide)
    (s := ⟨0, none, [.idle, .asleep .wait]⟩) ⟨_, exec_of_run (r := (_, _)) (ls := [(1, .call (.acq .wait)), (1, .go), (1, .go)]) rfl⟩ rfl rfl ?_
  rintro s rfl
  refine ⟨[((0, .call (.sig .post)), [.called 0 (.sig .post)]), ((0, .go), []), ((0, .go), []), ((0, .wake 1 false), []), ((0, .go), [.ret 0 (.sig .post) true]),
    ((0, .call (.acq .wait)), [.called 0 (.acq .wait)]), ((0, .go), []), ((0, .go), []), ((0, .go), []), ((0, .go), [.ret 0 (.acq .wait) true]),
    ((1, .go), []), ((1, .go), [])], ?_⟩
  apply Exists.intro
  refine ⟨?_, ?_, by decide, by decide⟩
  · refine ⟨⟨0, none, [.wantSig .post, .asleep .wait]⟩, rfl, ⟨trivial, by rintro ⟨b, hb⟩; revert hb; cases b <;> decide⟩, ?_⟩
    refine ⟨⟨0, some 0, [.sig .post, .asleep .wait]⟩, rfl, ⟨trivial, by rintro ⟨b, hb⟩; revert hb; cases b <;> decide⟩, ?_⟩
    refine ⟨⟨1, some 0, [.notifying .post false, .asleep .wait]⟩, rfl, ⟨trivial, by rintro ⟨b, hb⟩; revert hb; cases b <;> decide⟩, ?_⟩
    refine ⟨⟨1, some 0, [.leave (.sig .post) true, .woken .wait false]⟩, rfl, ⟨trivial, by rintro ⟨b, hb⟩; revert hb; cases b <;> decide⟩, ?_⟩
    refine ⟨⟨1, none, [.idle, .woken .wait false]⟩, rfl, ⟨trivial, by rintro ⟨b, hb⟩; revert hb; cases b <;> decide⟩, ?_⟩
    refine ⟨⟨1, none, [.want .wait, .woken .wait false]⟩, rfl, ⟨trivial, by rintro ⟨b, hb⟩; revert hb; cases b <;> decide⟩, ?_⟩
    refine ⟨⟨1, some 0, [.inside .wait, .woken .wait false]⟩, rfl, ⟨trivial, by rintro ⟨b, hb⟩; revert hb; cases b <;> decide⟩, ?_⟩
    refine ⟨⟨1, some 0, [.taking .wait false, .woken .wait false]⟩, rfl, ⟨trivial, by rintro ⟨b, hb⟩; revert hb; cases b <;> decide⟩, ?_⟩
    refine ⟨⟨0, some 0, [.leave (.acq .wait) true, .woken .wait false]⟩, rfl, ⟨trivial, by rintro ⟨b, hb⟩; revert hb; cases b <;> decide⟩, ?_⟩
    refine ⟨⟨0, none, [.idle, .woken .wait false]⟩, rfl, ⟨trivial, by rintro ⟨b, hb⟩; revert hb; cases b <;> decide⟩, ?_⟩
    refine ⟨⟨0, some 1, [.idle, .inside .wait]⟩, rfl, ⟨trivial, by rintro ⟨b, hb⟩; revert hb; cases b <;> decide⟩, ?_⟩
    refine ⟨⟨0, none, [.idle, .asleep .wait]⟩, rfl, ⟨trivial, by rintro ⟨b, hb⟩; revert hb; cases b <;> decide⟩, ?_⟩
    exact rfl
  · exact rfl

/-- **C114** (`timed_mutex` without `pthread_mutex_timedlock`) is false: `unlock()` wakes the thread in `lock()`, and another `lock()` is faster. -/
theorem C114_timed_mutex_refuted : Starves (step (timedMutex noRewait)) (init (timedMutex noRewait) 2) 2 (fun _ _ => True) (fun s => s.ths[1]? = some (.asleep .wait))
    (fun es => ∃ b, Ev.ret 1 (.acq .wait) b ∈ es) [.ret 0 (.sig .post) true, .ret 0 (.acq .wait) true] := by
  refine starves_of_rounds (step := step (timedMutex noRewait)) (P := fun s => s = ⟨true, none, [.idle, .asleep .wait]⟩) (by decide)
    (s := ⟨true, none, [.idle, .asleep .wait]⟩) ⟨_, exec_of_run (r := (_, _)) (ls := [(0, .call (.acq .wait)), (0, .go), (0, .go), (0, .go), (0, .go), (1, .call (.acq .wait)), (1, .go), (1, .go)]) rfl⟩ rfl rfl ?_
  rintro s rfl
  refine ⟨[((0, .call (.sig .post)), [.called 0 (.sig .post)]), ((0, .go), []), ((0, .go), []), ((0, .wake 1 false), []), ((0, .go), [.ret 0 (.sig .post) true]),
    ((0, .call (.acq .wait)), [.called 0 (.acq .wait)]), ((0, .go), []), ((0, .go), []), ((0, .go), []), ((0, .go), [.ret 0 (.acq .wait) true]),
    ((1, .go), []), ((1, .go), [])], ?_⟩
  apply Exists.intro
  refine ⟨?_, ?_, by decide, by decide⟩
  · refine ⟨⟨true, none, [.wantSig .post, .asleep .wait]⟩, rfl, ⟨trivial, by rintro ⟨b, hb⟩; revert hb; cases b <;> decide⟩, ?_⟩
    refine ⟨⟨true, some 0, [.sig .post, .asleep .wait]⟩, rfl, ⟨trivial, by rintro ⟨b, hb⟩; revert hb; cases b <;> decide⟩, ?_⟩
    refine ⟨⟨false, some 0, [.notifying .post false, .asleep .wait]⟩, rfl, ⟨trivial, by rintro ⟨b, hb⟩; revert hb; cases b <;> decide⟩, ?_⟩
    refine ⟨⟨false, some 0, [.leave (.sig .post) true, .woken .wait false]⟩, rfl, ⟨trivial, by rintro ⟨b, hb⟩; revert hb; cases b <;> decide⟩, ?_⟩
    refine ⟨⟨false, none, [.idle, .woken .wait false]⟩, rfl, ⟨trivial, by rintro ⟨b, hb⟩; revert hb; cases b <;> decide⟩, ?_⟩
    refine ⟨⟨false, none, [.want .wait, .woken .wait false]⟩, rfl, ⟨trivial, by rintro ⟨b, hb⟩; revert hb; cases b <;> decide⟩, ?_⟩
    refine ⟨⟨false, some 0, [.inside .wait, .woken .wait false]⟩, rfl, ⟨trivial, by rintro ⟨b, hb⟩; revert hb; cases b <;> decide⟩, ?_⟩
    refine ⟨⟨false, some 0, [.taking .wait false, .woken .wait false]⟩, rfl, ⟨trivial, by rintro ⟨b, hb⟩; revert hb; cases b <;> decide⟩, ?_⟩
    refine ⟨⟨true, some 0, [.leave (.acq .wait) true, .woken .wait false]⟩, rfl, ⟨trivial, by rintro ⟨b, hb⟩; revert hb; cases b <;> decide⟩, ?_⟩
    refine ⟨⟨true, none, [.idle, .woken .wait false]⟩, rfl, ⟨trivial, by rintro ⟨b, hb⟩; revert hb; cases b <;> decide⟩, ?_⟩
    refine ⟨⟨true, some 1, [.idle, .inside .wait]⟩, rfl, ⟨trivial, by rintro ⟨b, hb⟩; revert hb; cases b <;> decide⟩, ?_⟩
    refine ⟨⟨true, none, [.idle, .asleep .wait]⟩, rfl, ⟨trivial, by rintro ⟨b, hb⟩; revert hb; cases b <;> decide⟩, ?_⟩
    exact rfl
  · exact rfl

/-- **C114** (`manual_reset_event`, emulation) is false if the event is reset again. -/
theorem C114_manual_event_refuted : Starves (step (manualEvent noRewait)) (init (manualEvent noRewait) 2) 2 (fun _ _ => True) (fun s => s.ths[1]? = some (.asleep .wait))
    (fun es => ∃ b, Ev.ret 1 (.acq .wait) b ∈ es) [.ret 0 (.sig .set) true, .ret 0 (.sig .reset) true] := by
  refine starves_of_rounds (step := step (manualEvent noRewait)) (P := fun s => s = ⟨false, none, [.idle, .asleep .wait]⟩) (by decide)
    (s := ⟨false, none, [.idle, .asleep .wait]⟩) ⟨_, exec_of_run (r := (_, _)) (ls := [(1, .call (.acq .wait)), (1, .go), (1, .go)]) rfl⟩ rfl rfl ?_
  rintro s rfl
  refine ⟨[((0, .call (.sig .set)), [.called 0 (.sig .set)]), ((0, .go), []), ((0, .go), []), ((0, .go), []), ((0, .go), [.ret 0 (.sig .set) true]),
    ((0, .call (.sig .reset)), [.called 0 (.sig .reset)]), ((0, .go), []), ((0, .go), []), ((0, .go), [.ret 0 (.sig .reset) true]),
    ((1, .go), []), ((1, .go), [])], ?_⟩
  apply Exists.intro
  refine ⟨?_, ?_, by decide, by decide⟩
  · refine ⟨⟨false, none, [.wantSig .set, .asleep .wait]⟩, rfl, ⟨trivial, by rintro ⟨b, hb⟩; revert hb; cases b <;> decide⟩, ?_⟩
    refine ⟨⟨false, some 0, [.sig .set, .asleep .wait]⟩, rfl, ⟨trivial, by rintro ⟨b, hb⟩; revert hb; cases b <;> decide⟩, ?_⟩
    refine ⟨⟨true, some 0, [.notifying .set true, .asleep .wait]⟩, rfl, ⟨trivial, by rintro ⟨b, hb⟩; revert hb; cases b <;> decide⟩, ?_⟩
    refine ⟨⟨true, some 0, [.leave (.sig .set) true, .woken .wait false]⟩, rfl, ⟨trivial, by rintro ⟨b, hb⟩; revert hb; cases b <;> decide⟩, ?_⟩
    refine ⟨⟨true, none, [.idle, .woken .wait false]⟩, rfl, ⟨trivial, by rintro ⟨b, hb⟩; revert hb; cases b <;> decide⟩, ?_⟩
    refine ⟨⟨true, none, [.wantSig .reset, .woken .wait false]⟩, rfl, ⟨trivial, by rintro ⟨b, hb⟩; revert hb; cases b <;> decide⟩, ?_⟩
    refine ⟨⟨true, some 0, [.sig .reset, .woken .wait false]⟩, rfl, ⟨trivial, by rintro ⟨b, hb⟩; revert hb; cases b <;> decide⟩, ?_⟩
    refine ⟨⟨false, some 0, [.leave (.sig .reset) true, .woken .wait false]⟩, rfl, ⟨trivial, by rintro ⟨b, hb⟩; revert hb; cases b <;> decide⟩, ?_⟩
    refine ⟨⟨false, none, [.idle, .woken .wait false]⟩, rfl, ⟨trivial, by rintro ⟨b, hb⟩; revert hb; cases b <;> decide⟩, ?_⟩
    refine ⟨⟨false, some 1, [.idle, .inside .wait]⟩, rfl, ⟨trivial, by rintro ⟨b, hb⟩; revert hb; cases b <;> decide⟩, ?_⟩
    refine ⟨⟨false, none, [.idle, .asleep .wait]⟩, rfl, ⟨trivial, by rintro ⟨b, hb⟩; revert hb; cases b <;> decide⟩, ?_⟩
    exact rfl
  · exact rfl

/-- **C114** (`manual_reset_event`, emulation), what holds: from some time on the event is set; then every `wait()` in progress at any time returns, or
throws because the system refuses to lock the mutex or to wait, in every execution without end in which no thread that can take its next step again and
again is passed over for ever (the mutex inside hands itself to each thread that asks for it), whatever else happens.  Missing: the same if the event is
reset, which is false, and the same for a mutex that passes over a thread for ever, see `C114_manual_event_mutex_refuted`. -/
theorem C114_manual_event_partial (n : Nat) (st : Nat → St Bool SetReset) (lbl : Nat → Nat × Act SetReset) (ev : Nat → List (Ev SetReset))
    (h : Endless (step (manualEvent noRewait)) (init (manualEvent noRewait) n) st lbl ev) (hs : Served (step (manualEvent noRewait)) Next st lbl)
    (t i : Nat) (hi : InWait t (st i)) (k : Nat) (hset : ∀ j, k ≤ j → (st j).d = true) : ∃ j, i ≤ j ∧ WaitEnds t (ev j) :=
  wait_ends manualEvent_broadcast h hs hi hset

/-- The hypotheses of `C114_manual_event_partial` can be met: a thread sleeps, `set()` is about to wake it; afterwards both threads use the event. -/
example : ∃ st lbl ev, Endless (step (manualEvent noRewait)) (init (manualEvent noRewait) 2) st lbl ev ∧
    Served (step (manualEvent noRewait)) Next st lbl ∧ InWait 1 (st 0) ∧ (st 0).ths[1]? = some (.asleep .wait) ∧ ∀ j, (st j).d = true := by
  obtain ⟨st, lbl, ev, h, h0, hg, hR⟩ : ∃ st lbl ev, Endless (step (manualEvent noRewait)) (init (manualEvent noRewait) 2) st lbl ev ∧
      st 0 = ⟨true, some 0, [.notifying .set true, .asleep .wait]⟩ ∧ (∀ i, (st i).d = true ∧ (st i).ths.length = 2) ∧
      ∀ k : Fin 2, Often fun i => (lbl i).1 = k.val := by
    refine endless_of_rounds (κ := Fin 2) (step := step (manualEvent noRewait))
      (P := fun s => s = ⟨true, some 0, [.notifying .set true, .asleep .wait]⟩ ∨ s = ⟨true, none, [.idle, .idle]⟩)
      (good := fun s _ _ => s.d = true ∧ s.ths.length = 2) (R := fun k l _ => l.1 = k.val) 0 ?_ (s₀ := init (manualEvent noRewait) 2)
      (s := ⟨true, some 0, [.notifying .set true, .asleep .wait]⟩)
      ⟨_, exec_of_run (r := (_, _)) (ls := [(1, .call (.acq .wait)), (1, .go), (1, .go), (0, .call (.sig .set)), (0, .go), (0, .go)]) rfl⟩ (.inl rfl)
    rintro s (rfl | rfl)
    · refine ⟨[((0, .go), []), ((0, .go), [.ret 0 (.sig .set) true]), ((1, .go), []), ((1, .go), []), ((1, .go), []), ((1, .go), [.ret 1 (.acq .wait) true])],
        ⟨true, none, [.idle, .idle]⟩, ?_, .inr rfl, by intro k; match k with | 0 => simp | 1 => simp⟩
      exact ⟨⟨true, some 0, [.leave (.sig .set) true, .woken .wait false]⟩, rfl, ⟨rfl, rfl⟩, ⟨true, none, [.idle, .woken .wait false]⟩, rfl, ⟨rfl, rfl⟩,
        ⟨true, some 1, [.idle, .inside .wait]⟩, rfl, ⟨rfl, rfl⟩, ⟨true, some 1, [.idle, .taking .wait false]⟩, rfl, ⟨rfl, rfl⟩,
        ⟨true, some 1, [.idle, .leave (.acq .wait) true]⟩, rfl, ⟨rfl, rfl⟩, ⟨true, none, [.idle, .idle]⟩, rfl, ⟨rfl, rfl⟩, rfl⟩
    · refine ⟨[((0, .call (.sig .set)), [.called 0 (.sig .set)]), ((1, .call (.acq .wait)), [.called 1 (.acq .wait)]), ((0, .go), []), ((0, .go), []),
        ((0, .go), [.ret 0 (.sig .set) true]), ((1, .go), []), ((1, .go), []), ((1, .go), []), ((1, .go), [.ret 1 (.acq .wait) true])],
        ⟨true, none, [.idle, .idle]⟩, ?_, .inr rfl, by intro k; match k with | 0 => simp | 1 => simp⟩
      exact ⟨⟨true, none, [.wantSig .set, .idle]⟩, rfl, ⟨rfl, rfl⟩, ⟨true, none, [.wantSig .set, .want .wait]⟩, rfl, ⟨rfl, rfl⟩,
        ⟨true, some 0, [.sig .set, .want .wait]⟩, rfl, ⟨rfl, rfl⟩, ⟨true, some 0, [.leave (.sig .set) true, .want .wait]⟩, rfl, ⟨rfl, rfl⟩,
        ⟨true, none, [.idle, .want .wait]⟩, rfl, ⟨rfl, rfl⟩, ⟨true, some 1, [.idle, .inside .wait]⟩, rfl, ⟨rfl, rfl⟩,
        ⟨true, some 1, [.idle, .taking .wait false]⟩, rfl, ⟨rfl, rfl⟩, ⟨true, some 1, [.idle, .leave (.acq .wait) true]⟩, rfl, ⟨rfl, rfl⟩,
        ⟨true, none, [.idle, .idle]⟩, rfl, ⟨rfl, rfl⟩, rfl⟩
  refine ⟨st, lbl, ev, h, ?_, ⟨_, by rw [h0]; rfl, rfl⟩, by rw [h0]; rfl, fun j => (hg j).1⟩
  intro t hr i
  match t with
  | 0 => exact hR 0 i
  | 1 => exact hR 1 i
  | t + 2 =>
    obtain ⟨j, _, a, r, _, hst⟩ := hr 0
    have : (st j).ths[t + 2]? = none := List.getElem?_eq_none (by rw [(hg j).2]; omega)
    simp [step, this] at hst

/-- **C114** (`manual_reset_event`, emulation): that the scheduler does not forget the thread is not enough.  The event stays set, and other calls have the
mutex whenever the thread tries to lock it. -/
theorem C114_manual_event_mutex_refuted : ∃ st lbl ev, Endless (step (manualEvent noRewait)) (init (manualEvent noRewait) 2) st lbl ev ∧
    Scheduled (step (manualEvent noRewait)) Next st lbl ∧ InWait 1 (st 0) ∧ (∀ j, (st j).d = true) ∧ (∀ j, ¬ WaitEnds 1 (ev j)) ∧
    Often fun j => .ret 0 (.acq .wait) true ∈ ev j := by
  obtain ⟨st, lbl, ev, h, h0, hg, hR⟩ : ∃ st lbl ev, Endless (step (manualEvent noRewait)) (init (manualEvent noRewait) 2) st lbl ev ∧
      st 0 = ⟨true, some 0, [.inside .wait, .want .wait]⟩ ∧
      (∀ i, ((st i).d = true ∧ (st i).ths.length = 2) ∧ ((lbl i).1 = 0 ∧ (st i).ths[1]? = some (.want .wait)) ∧ ¬ WaitEnds 1 (ev i) ∧
        (Ev.ret 0 (.acq .wait) true ∈ ev i → (st i).owner = some 0)) ∧
      ∀ _ : Unit, Often fun i => Ev.ret 0 (.acq .wait) true ∈ ev i := by
    refine endless_of_rounds (κ := Unit) (step := step (manualEvent noRewait)) (P := fun s => s = ⟨true, some 0, [.inside .wait, .want .wait]⟩)
      (good := fun s l es => (s.d = true ∧ s.ths.length = 2) ∧ (l.1 = 0 ∧ s.ths[1]? = some (.want .wait)) ∧ ¬ WaitEnds 1 es ∧
        (Ev.ret 0 (.acq .wait) true ∈ es → s.owner = some 0)) (R := fun _ _ es => Ev.ret 0 (.acq .wait) true ∈ es) ()
      ?_ (s₀ := init (manualEvent noRewait) 2) (s := ⟨true, some 0, [.inside .wait, .want .wait]⟩)
      ⟨_, exec_of_run (r := (_, _)) (ls := [(0, .call (.sig .set)), (0, .go), (0, .go), (0, .go), (0, .go), (0, .call (.acq .wait)), (1, .call (.acq .wait)),
        (0, .go)]) rfl⟩ rfl
    rintro s rfl
    refine ⟨[((0, .go), []), ((0, .go), []), ((0, .go), [.ret 0 (.acq .wait) true]), ((0, .call (.acq .wait)), [.called 0 (.acq .wait)]), ((0, .go), [])],
      ⟨true, some 0, [.inside .wait, .want .wait]⟩, ?_, rfl, fun _ => by simp⟩
    have w : ∀ {es : List (Ev SetReset)}, es = [] ∨ es = [.ret 0 (.acq .wait) true] ∨ es = [.called 0 (.acq .wait)] → ¬ WaitEnds 1 es := by
      rintro es (rfl | rfl | rfl) (⟨b, hb⟩ | hb) <;> simp at hb
    exact ⟨⟨true, some 0, [.taking .wait false, .want .wait]⟩, rfl, ⟨⟨rfl, rfl⟩, ⟨rfl, rfl⟩, w (.inl rfl), fun h => by simp at h⟩,
      ⟨true, some 0, [.leave (.acq .wait) true, .want .wait]⟩, rfl, ⟨⟨rfl, rfl⟩, ⟨rfl, rfl⟩, w (.inl rfl), fun h => by simp at h⟩,
      ⟨true, none, [.idle, .want .wait]⟩, rfl, ⟨⟨rfl, rfl⟩, ⟨rfl, rfl⟩, w (.inr (.inl rfl)), fun _ => rfl⟩,
      ⟨true, none, [.want .wait, .want .wait]⟩, rfl, ⟨⟨rfl, rfl⟩, ⟨rfl, rfl⟩, w (.inr (.inr rfl)), fun h => by simp at h⟩,
      ⟨true, some 0, [.inside .wait, .want .wait]⟩, rfl, ⟨⟨rfl, rfl⟩, ⟨rfl, rfl⟩, w (.inl rfl), fun h => by simp at h⟩, rfl⟩
  refine ⟨st, lbl, ev, h, ?_, ⟨_, by rw [h0]; rfl, rfl⟩, fun j => (hg j).1.1, fun j => (hg j).2.2.1, hR ()⟩
  intro t i
  obtain ⟨j, hj, he⟩ := hR () i
  refine ⟨j, hj, ?_⟩
  match t with
  | 0 => exact .inl (hg j).2.1.1
  | 1 =>
    refine .inr fun ⟨a, r, hn, hst⟩ => ?_
    have ho := (hg j).2.2.2 he
    cases a <;> simp [step, (hg j).2.1.2, ho, Next] at hst hn
  | t + 2 =>
    refine .inr fun ⟨a, r, _, hst⟩ => ?_
    have : (st j).ths[t + 2]? = none := List.getElem?_eq_none (by rw [(hg j).1.2]; omega)
    simp [step, this] at hst

private def noneBut1 : Ev One → Bool | .ret u (.acq _) true => u == 1 | _ => true

private theorem quiet {es : List (Ev One)} (h : es.all noneBut1 = true) : ∀ u q, u ≠ 1 → .ret u (.acq q) true ∉ es := fun u q hu he => by
  have := List.all_eq_true.mp h _ he
  simp [noneBut1] at this
  exact hu this

/-- **C114** (`auto_reset_event`, emulation), what holds: no other thread's wait succeeds any more from some time on, and at some time after that the event is
set; then every `wait()` in progress at any time before returns, or throws because the system refuses to lock the mutex or to wait, in every execution without
end in which no thread that can take its next step again and again is passed over for ever, whatever else happens: others set the event, try and time out.
So a thread is passed over only as long as others succeed.  Missing: the same if others succeed, which is false. -/
theorem C114_auto_event_partial (n : Nat) (st : Nat → St Bool One) (lbl : Nat → Nat × Act One) (ev : Nat → List (Ev One))
    (h : Endless (step (autoEvent noRewait)) (init (autoEvent noRewait) n) st lbl ev) (hs : Served (step (autoEvent noRewait)) Next st lbl)
    (t i : Nat) (hi : InWait t (st i)) (k : Nat) (hcalm : ∀ j, k ≤ j → ∀ u q, u ≠ t → .ret u (.acq q) true ∉ ev j)
    (j₀ : Nat) (h1 : i ≤ j₀) (h2 : k ≤ j₀) (hset : (st j₀).d = true) : ∃ j, i ≤ j ∧ WaitEnds t (ev j) :=
  calm_wait_ends autoEvent_tokens h hs hi hcalm (fun _ _ _ _ => rfl) h1 h2 hset

/-- The hypotheses of `C114_auto_event_partial` can be met: a thread sleeps, `set()` is about to wake it; afterwards it sets the event and waits again and again, and
the other thread tries in vain. -/
example : ∃ st lbl ev, Endless (step (autoEvent noRewait)) (init (autoEvent noRewait) 2) st lbl ev ∧
    Served (step (autoEvent noRewait)) Next st lbl ∧ InWait 1 (st 0) ∧ (st 0).ths[1]? = some (.asleep .wait) ∧ (st 0).d = true ∧ ∀ j, ∀ u q, u ≠ 1 → .ret u (.acq q) true ∉ ev j := by
  obtain ⟨st, lbl, ev, h, h0, hg, hR⟩ : ∃ st lbl ev, Endless (step (autoEvent noRewait)) (init (autoEvent noRewait) 2) st lbl ev ∧
      st 0 = ⟨true, some 0, [.notifying .post false, .asleep .wait]⟩ ∧ (∀ i, (st i).ths.length = 2 ∧ ∀ u q, u ≠ 1 → .ret u (.acq q) true ∉ ev i) ∧ ∀ k : Fin 2, Often fun i => (lbl i).1 = k.val := by
    refine endless_of_rounds (κ := Fin 2) (step := step (autoEvent noRewait))
      (P := fun s => s = ⟨true, some 0, [.notifying .post false, .asleep .wait]⟩ ∨ s = ⟨false, none, [.idle, .idle]⟩)
      (good := fun s _ es => s.ths.length = 2 ∧ ∀ u q, u ≠ 1 → .ret u (.acq q) true ∉ es) (R := fun k l _ => l.1 = k.val) 0 ?_
      (s₀ := init (autoEvent noRewait) 2) (s := ⟨true, some 0, [.notifying .post false, .asleep .wait]⟩)
      ⟨_, exec_of_run (r := (_, _)) (ls := [(1, .call (.acq .wait)), (1, .go), (1, .go), (0, .call (.sig .post)), (0, .go), (0, .go)]) rfl⟩ (.inl rfl)
    rintro s (rfl | rfl)
    · refine ⟨[((0, .wake 1 false), []), ((0, .go), [.ret 0 (.sig .post) true]), ((1, .go), []), ((1, .go), []), ((1, .go), []),
        ((1, .go), [.ret 1 (.acq .wait) true])],
        ⟨false, none, [.idle, .idle]⟩, ?_, .inr rfl, by intro k; match k with | 0 => simp | 1 => simp⟩
      exact ⟨⟨true, some 0, [.leave (.sig .post) true, .woken .wait false]⟩, rfl, ⟨rfl, quiet rfl⟩, ⟨true, none, [.idle, .woken .wait false]⟩, rfl,
        ⟨rfl, quiet rfl⟩, ⟨true, some 1, [.idle, .inside .wait]⟩, rfl, ⟨rfl, quiet rfl⟩, ⟨true, some 1, [.idle, .taking .wait false]⟩, rfl, ⟨rfl, quiet rfl⟩,
        ⟨false, some 1, [.idle, .leave (.acq .wait) true]⟩, rfl, ⟨rfl, quiet rfl⟩, ⟨false, none, [.idle, .idle]⟩, rfl, ⟨rfl, quiet rfl⟩, rfl⟩
    · refine ⟨[((0, .call (.acq .tryWait)), [.called 0 (.acq .tryWait)]), ((0, .go), []), ((0, .go), []), ((0, .go), [.ret 0 (.acq .tryWait) false]),
        ((1, .call (.sig .post)), [.called 1 (.sig .post)]), ((1, .go), []), ((1, .go), []), ((1, .go), []), ((1, .go), [.ret 1 (.sig .post) true]),
        ((1, .call (.acq .wait)), [.called 1 (.acq .wait)]), ((1, .go), []), ((1, .go), []), ((1, .go), []), ((1, .go), [.ret 1 (.acq .wait) true])],
        ⟨false, none, [.idle, .idle]⟩, ?_, .inr rfl, by intro k; match k with | 0 => simp | 1 => simp⟩
      exact ⟨⟨false, none, [.want .tryWait, .idle]⟩, rfl, ⟨rfl, quiet rfl⟩, ⟨false, some 0, [.inside .tryWait, .idle]⟩, rfl, ⟨rfl, quiet rfl⟩,
        ⟨false, some 0, [.leave (.acq .tryWait) false, .idle]⟩, rfl, ⟨rfl, quiet rfl⟩, ⟨false, none, [.idle, .idle]⟩, rfl, ⟨rfl, quiet rfl⟩,
        ⟨false, none, [.idle, .wantSig .post]⟩, rfl, ⟨rfl, quiet rfl⟩, ⟨false, some 1, [.idle, .sig .post]⟩, rfl, ⟨rfl, quiet rfl⟩,
        ⟨true, some 1, [.idle, .notifying .post false]⟩, rfl, ⟨rfl, quiet rfl⟩, ⟨true, some 1, [.idle, .leave (.sig .post) true]⟩, rfl, ⟨rfl, quiet rfl⟩,
        ⟨true, none, [.idle, .idle]⟩, rfl, ⟨rfl, quiet rfl⟩, ⟨true, none, [.idle, .want .wait]⟩, rfl, ⟨rfl, quiet rfl⟩,
        ⟨true, some 1, [.idle, .inside .wait]⟩, rfl, ⟨rfl, quiet rfl⟩, ⟨true, some 1, [.idle, .taking .wait false]⟩, rfl, ⟨rfl, quiet rfl⟩,
        ⟨false, some 1, [.idle, .leave (.acq .wait) true]⟩, rfl, ⟨rfl, quiet rfl⟩, ⟨false, none, [.idle, .idle]⟩, rfl, ⟨rfl, quiet rfl⟩, rfl⟩
  refine ⟨st, lbl, ev, h, ?_, ⟨_, by rw [h0]; rfl, rfl⟩, by rw [h0]; rfl, by rw [h0], fun j => (hg j).2⟩
  intro t hr i
  match t with
  | 0 => exact hR 0 i
  | 1 => exact hR 1 i
  | t + 2 =>
    obtain ⟨j, _, a, r, _, hst⟩ := hr 0
    have : (st j).ths[t + 2]? = none := List.getElem?_eq_none (by rw [(hg j).1]; omega)
    simp [step, this] at hst

/-- **C114** (`semaphore`, emulation), what holds: from some time on the count is positive; then every `wait()` in progress at any time returns, or throws because
the system refuses to lock the mutex or to wait, in every execution without end in which no thread that can take its next step again and again is passed over
for ever, whatever else happens; others may wait and post.  Missing: the same if the count is 0 again and again, which is false. -/
theorem C114_semaphore_partial (c : UInt32) (n : Nat) (st : Nat → St UInt32 One) (lbl : Nat → Nat × Act One) (ev : Nat → List (Ev One))
    (h : Endless (step (semaphore noRewait c)) (init (semaphore noRewait c) n) st lbl ev) (hs : Served (step (semaphore noRewait c)) Next st lbl)
    (t i : Nat) (hi : InWait t (st i)) (k : Nat) (hset : ∀ j, k ≤ j → (st j).d ≠ 0) : ∃ j, i ≤ j ∧ WaitEnds t (ev j) :=
  ready_wait_ends (semaphore_tokens c) h hs hi fun j hj => by simpa [semaphore] using hset j hj

/-- The hypotheses of `C114_semaphore_partial` can be met: a thread sleeps, `post()` is about to wake it; afterwards one thread posts and the other waits again and
again. -/
example : ∃ st lbl ev, Endless (step (semaphore noRewait 0)) (init (semaphore noRewait 0) 2) st lbl ev ∧
    Served (step (semaphore noRewait 0)) Next st lbl ∧ InWait 1 (st 0) ∧ (st 0).ths[1]? = some (.asleep .wait) ∧ ∀ j, (st j).d ≠ 0 := by
  obtain ⟨st, lbl, ev, h, h0, hg, hR⟩ : ∃ st lbl ev, Endless (step (semaphore noRewait 0)) (init (semaphore noRewait 0) 2) st lbl ev ∧
      st 0 = ⟨1, some 0, [.notifying .post false, .asleep .wait]⟩ ∧ (∀ i, (st i).ths.length = 2 ∧ (st i).d ≠ 0) ∧ ∀ k : Fin 2, Often fun i => (lbl i).1 = k.val := by
    refine endless_of_rounds (κ := Fin 2) (step := step (semaphore noRewait 0))
      (P := fun s => s = ⟨1, some 0, [.notifying .post false, .asleep .wait]⟩ ∨ s = ⟨1, none, [.idle, .idle]⟩)
      (good := fun s _ _ => s.ths.length = 2 ∧ s.d ≠ 0) (R := fun k l _ => l.1 = k.val) 0 ?_
      (s₀ := init (semaphore noRewait 0) 2) (s := ⟨1, some 0, [.notifying .post false, .asleep .wait]⟩)
      ⟨_, exec_of_run (r := (_, _)) (ls := [(1, .call (.acq .wait)), (1, .go), (1, .go), (0, .call (.sig .post)), (0, .go), (0, .go)]) rfl⟩ (.inl rfl)
    rintro s (rfl | rfl)
    · refine ⟨[((0, .wake 1 false), []), ((0, .go), [.ret 0 (.sig .post) true]), ((0, .call (.sig .post)), [.called 0 (.sig .post)]), ((0, .go), []),
        ((0, .go), []), ((0, .go), []), ((0, .go), [.ret 0 (.sig .post) true]), ((1, .go), []), ((1, .go), []), ((1, .go), []),
        ((1, .go), [.ret 1 (.acq .wait) true])],
        ⟨1, none, [.idle, .idle]⟩, ?_, .inr rfl, by intro k; match k with | 0 => simp | 1 => simp⟩
      exact ⟨⟨1, some 0, [.leave (.sig .post) true, .woken .wait false]⟩, rfl, ⟨rfl, by decide⟩, ⟨1, none, [.idle, .woken .wait false]⟩, rfl, ⟨rfl, by decide⟩,
        ⟨1, none, [.wantSig .post, .woken .wait false]⟩, rfl, ⟨rfl, by decide⟩, ⟨1, some 0, [.sig .post, .woken .wait false]⟩, rfl, ⟨rfl, by decide⟩,
        ⟨2, some 0, [.notifying .post false, .woken .wait false]⟩, rfl, ⟨rfl, by decide⟩, ⟨2, some 0, [.leave (.sig .post) true, .woken .wait false]⟩, rfl,
        ⟨rfl, by decide⟩, ⟨2, none, [.idle, .woken .wait false]⟩, rfl, ⟨rfl, by decide⟩, ⟨2, some 1, [.idle, .inside .wait]⟩, rfl, ⟨rfl, by decide⟩,
        ⟨2, some 1, [.idle, .taking .wait false]⟩, rfl, ⟨rfl, by decide⟩, ⟨1, some 1, [.idle, .leave (.acq .wait) true]⟩, rfl, ⟨rfl, by decide⟩,
        ⟨1, none, [.idle, .idle]⟩, rfl, ⟨rfl, by decide⟩, rfl⟩
    · refine ⟨[((0, .call (.sig .post)), [.called 0 (.sig .post)]), ((0, .go), []), ((0, .go), []), ((0, .go), []), ((0, .go), [.ret 0 (.sig .post) true]),
        ((1, .call (.acq .wait)), [.called 1 (.acq .wait)]), ((1, .go), []), ((1, .go), []), ((1, .go), []), ((1, .go), [.ret 1 (.acq .wait) true])],
        ⟨1, none, [.idle, .idle]⟩, ?_, .inr rfl, by intro k; match k with | 0 => simp | 1 => simp⟩
      exact ⟨⟨1, none, [.wantSig .post, .idle]⟩, rfl, ⟨rfl, by decide⟩, ⟨1, some 0, [.sig .post, .idle]⟩, rfl, ⟨rfl, by decide⟩,
        ⟨2, some 0, [.notifying .post false, .idle]⟩, rfl, ⟨rfl, by decide⟩, ⟨2, some 0, [.leave (.sig .post) true, .idle]⟩, rfl, ⟨rfl, by decide⟩,
        ⟨2, none, [.idle, .idle]⟩, rfl, ⟨rfl, by decide⟩, ⟨2, none, [.idle, .want .wait]⟩, rfl, ⟨rfl, by decide⟩, ⟨2, some 1, [.idle, .inside .wait]⟩, rfl,
        ⟨rfl, by decide⟩, ⟨2, some 1, [.idle, .taking .wait false]⟩, rfl, ⟨rfl, by decide⟩, ⟨1, some 1, [.idle, .leave (.acq .wait) true]⟩, rfl,
        ⟨rfl, by decide⟩, ⟨1, none, [.idle, .idle]⟩, rfl, ⟨rfl, by decide⟩, rfl⟩
  refine ⟨st, lbl, ev, h, ?_, ⟨_, by rw [h0]; rfl, rfl⟩, by rw [h0]; rfl, fun j => (hg j).2⟩
  intro t hr i
  match t with
  | 0 => exact hR 0 i
  | 1 => exact hR 1 i
  | t + 2 =>
    obtain ⟨j, _, a, r, _, hst⟩ := hr 0
    have : (st j).ths[t + 2]? = none := List.getElem?_eq_none (by rw [(hg j).1]; omega)
    simp [step, this] at hst

/-- **C114** (`semaphore`, emulation): no other thread's wait succeeds any more from some time on, the count is positive at some time after that, and it is not
incremented beyond its greatest value; then every `wait()` in progress at any time before ends as in `C114_semaphore_partial`. -/
theorem C114_semaphore_calm_partial (c : UInt32) (n : Nat) (st : Nat → St UInt32 One) (lbl : Nat → Nat × Act One) (ev : Nat → List (Ev One))
    (h : Endless (step (semaphore noRewait c)) (init (semaphore noRewait c) n) st lbl ev) (hs : Served (step (semaphore noRewait c)) Next st lbl)
    (t i : Nat) (hi : InWait t (st i)) (k : Nat) (hcalm : ∀ j, k ≤ j → ∀ u q, u ≠ t → .ret u (.acq q) true ∉ ev j)
    (hmax : ∀ j, k ≤ j → (st j).d ≠ 0xFFFFFFFF) (j₀ : Nat) (h1 : i ≤ j₀) (h2 : k ≤ j₀) (hset : (st j₀).d ≠ 0) : ∃ j, i ≤ j ∧ WaitEnds t (ev j) := by
  refine calm_wait_ends (semaphore_tokens c) h hs hi hcalm (fun j hj _ _ => ?_) h1 h2 (by simpa [semaphore] using hset)
  have hm := hmax j hj
  simp only [semaphore, bne_iff_ne]
  intro e
  refine hm ?_
  have e' := congrArg (· - 1) e
  simp only [UInt32.add_sub_cancel] at e'
  rw [e']
  decide

/-- The hypotheses of `C114_semaphore_calm_partial` can be met. -/
example : ∃ st lbl ev, Endless (step (semaphore noRewait 0)) (init (semaphore noRewait 0) 2) st lbl ev ∧
    Served (step (semaphore noRewait 0)) Next st lbl ∧ InWait 1 (st 0) ∧ (st 0).ths[1]? = some (.asleep .wait) ∧ (st 0).d ≠ 0 ∧ (∀ j, (st j).d ≠ 0xFFFFFFFF) ∧ ∀ j, ∀ u q, u ≠ 1 → .ret u (.acq q) true ∉ ev j := by
  obtain ⟨st, lbl, ev, h, h0, hg, hR⟩ : ∃ st lbl ev, Endless (step (semaphore noRewait 0)) (init (semaphore noRewait 0) 2) st lbl ev ∧
      st 0 = ⟨1, some 0, [.notifying .post false, .asleep .wait]⟩ ∧ (∀ i, (st i).ths.length = 2 ∧ (st i).d ≠ 0xFFFFFFFF ∧ ∀ u q, u ≠ 1 → .ret u (.acq q) true ∉ ev i) ∧ ∀ k : Fin 2, Often fun i => (lbl i).1 = k.val := by
    refine endless_of_rounds (κ := Fin 2) (step := step (semaphore noRewait 0))
      (P := fun s => s = ⟨1, some 0, [.notifying .post false, .asleep .wait]⟩ ∨ s = ⟨1, none, [.idle, .idle]⟩)
      (good := fun s _ es => s.ths.length = 2 ∧ s.d ≠ 0xFFFFFFFF ∧ ∀ u q, u ≠ 1 → .ret u (.acq q) true ∉ es) (R := fun k l _ => l.1 = k.val) 0 ?_
      (s₀ := init (semaphore noRewait 0) 2) (s := ⟨1, some 0, [.notifying .post false, .asleep .wait]⟩)
      ⟨_, exec_of_run (r := (_, _)) (ls := [(1, .call (.acq .wait)), (1, .go), (1, .go), (0, .call (.sig .post)), (0, .go), (0, .go)]) rfl⟩ (.inl rfl)
    rintro s (rfl | rfl)
    · refine ⟨[((0, .wake 1 false), []), ((0, .go), [.ret 0 (.sig .post) true]), ((1, .go), []), ((1, .go), []), ((1, .go), []),
        ((1, .go), [.ret 1 (.acq .wait) true]), ((0, .call (.sig .post)), [.called 0 (.sig .post)]), ((0, .go), []), ((0, .go), []), ((0, .go), []),
        ((0, .go), [.ret 0 (.sig .post) true])],
        ⟨1, none, [.idle, .idle]⟩, ?_, .inr rfl, by intro k; match k with | 0 => simp | 1 => simp⟩
      exact ⟨⟨1, some 0, [.leave (.sig .post) true, .woken .wait false]⟩, rfl, ⟨rfl, by decide, quiet rfl⟩, ⟨1, none, [.idle, .woken .wait false]⟩, rfl,
        ⟨rfl, by decide, quiet rfl⟩, ⟨1, some 1, [.idle, .inside .wait]⟩, rfl, ⟨rfl, by decide, quiet rfl⟩, ⟨1, some 1, [.idle, .taking .wait false]⟩, rfl,
        ⟨rfl, by decide, quiet rfl⟩, ⟨0, some 1, [.idle, .leave (.acq .wait) true]⟩, rfl, ⟨rfl, by decide, quiet rfl⟩, ⟨0, none, [.idle, .idle]⟩, rfl,
        ⟨rfl, by decide, quiet rfl⟩, ⟨0, none, [.wantSig .post, .idle]⟩, rfl, ⟨rfl, by decide, quiet rfl⟩, ⟨0, some 0, [.sig .post, .idle]⟩, rfl,
        ⟨rfl, by decide, quiet rfl⟩, ⟨1, some 0, [.notifying .post false, .idle]⟩, rfl, ⟨rfl, by decide, quiet rfl⟩,
        ⟨1, some 0, [.leave (.sig .post) true, .idle]⟩, rfl, ⟨rfl, by decide, quiet rfl⟩, ⟨1, none, [.idle, .idle]⟩, rfl, ⟨rfl, by decide, quiet rfl⟩, rfl⟩
    · refine ⟨[((1, .call (.acq .wait)), [.called 1 (.acq .wait)]), ((1, .go), []), ((1, .go), []), ((1, .go), []), ((1, .go), [.ret 1 (.acq .wait) true]),
        ((0, .call (.acq .tryWait)), [.called 0 (.acq .tryWait)]), ((0, .go), []), ((0, .go), []), ((0, .go), [.ret 0 (.acq .tryWait) false]),
        ((1, .call (.sig .post)), [.called 1 (.sig .post)]), ((1, .go), []), ((1, .go), []), ((1, .go), []), ((1, .go), [.ret 1 (.sig .post) true])],
        ⟨1, none, [.idle, .idle]⟩, ?_, .inr rfl, by intro k; match k with | 0 => simp | 1 => simp⟩
      exact ⟨⟨1, none, [.idle, .want .wait]⟩, rfl, ⟨rfl, by decide, quiet rfl⟩, ⟨1, some 1, [.idle, .inside .wait]⟩, rfl, ⟨rfl, by decide, quiet rfl⟩,
        ⟨1, some 1, [.idle, .taking .wait false]⟩, rfl, ⟨rfl, by decide, quiet rfl⟩, ⟨0, some 1, [.idle, .leave (.acq .wait) true]⟩, rfl,
        ⟨rfl, by decide, quiet rfl⟩, ⟨0, none, [.idle, .idle]⟩, rfl, ⟨rfl, by decide, quiet rfl⟩, ⟨0, none, [.want .tryWait, .idle]⟩, rfl,
        ⟨rfl, by decide, quiet rfl⟩, ⟨0, some 0, [.inside .tryWait, .idle]⟩, rfl, ⟨rfl, by decide, quiet rfl⟩,
        ⟨0, some 0, [.leave (.acq .tryWait) false, .idle]⟩, rfl, ⟨rfl, by decide, quiet rfl⟩, ⟨0, none, [.idle, .idle]⟩, rfl, ⟨rfl, by decide, quiet rfl⟩,
        ⟨0, none, [.idle, .wantSig .post]⟩, rfl, ⟨rfl, by decide, quiet rfl⟩, ⟨0, some 1, [.idle, .sig .post]⟩, rfl, ⟨rfl, by decide, quiet rfl⟩,
        ⟨1, some 1, [.idle, .notifying .post false]⟩, rfl, ⟨rfl, by decide, quiet rfl⟩, ⟨1, some 1, [.idle, .leave (.sig .post) true]⟩, rfl,
        ⟨rfl, by decide, quiet rfl⟩, ⟨1, none, [.idle, .idle]⟩, rfl, ⟨rfl, by decide, quiet rfl⟩, rfl⟩
  refine ⟨st, lbl, ev, h, ?_, ⟨_, by rw [h0]; rfl, rfl⟩, by rw [h0]; rfl, by rw [h0]; decide, fun j => (hg j).2.1, fun j => (hg j).2.2⟩
  intro t hr i
  match t with
  | 0 => exact hR 0 i
  | 1 => exact hR 1 i
  | t + 2 =>
    obtain ⟨j, _, a, r, _, hst⟩ := hr 0
    have : (st j).ths[t + 2]? = none := List.getElem?_eq_none (by rw [(hg j).1]; omega)
    simp [step, this] at hst

/-- **C114** (`timed_mutex` without `pthread_mutex_timedlock`), what holds: no other thread locks the mutex any more from some time on, and at some time after that
it is free; then every `lock()` in progress at any time before returns (it does not throw), in every execution without end in which no thread that can take
its next step again and again is passed over for ever; others may try and time out.  Missing: the same if others lock the mutex, which is false. -/
theorem C114_timed_mutex_partial (n : Nat) (st : Nat → St Bool One) (lbl : Nat → Nat × Act One) (ev : Nat → List (Ev One))
    (h : Endless (step (timedMutex noRewait)) (init (timedMutex noRewait) n) st lbl ev) (hs : Served (step (timedMutex noRewait)) Next st lbl)
    (t i : Nat) (hi : InWait t (st i)) (k : Nat) (hcalm : ∀ j, k ≤ j → ∀ u q, u ≠ t → .ret u (.acq q) true ∉ ev j)
    (j₀ : Nat) (h1 : i ≤ j₀) (h2 : k ≤ j₀) (hfree : (st j₀).d = false) : ∃ j, i ≤ j ∧ ∃ b, .ret t (.acq .wait) b ∈ ev j := by
  obtain ⟨j, hj, he | he⟩ := calm_wait_ends timedMutex_tokens h hs hi hcalm (fun _ _ _ _ => rfl) h1 h2 (by simpa [timedMutex] using hfree)
  · exact ⟨j, hj, he⟩
  · exact (no_throw rfl rfl (h.next j) he).elim

/-- The hypotheses of `C114_timed_mutex_partial` can be met: a thread sleeps, `unlock()` is about to wake it; afterwards it unlocks and locks the mutex again and
again, and the other thread tries in vain. -/
example : ∃ st lbl ev, Endless (step (timedMutex noRewait)) (init (timedMutex noRewait) 2) st lbl ev ∧
    Served (step (timedMutex noRewait)) Next st lbl ∧ InWait 1 (st 0) ∧ (st 0).ths[1]? = some (.asleep .wait) ∧ (st 0).d = false ∧ ∀ j, ∀ u q, u ≠ 1 → .ret u (.acq q) true ∉ ev j := by
  obtain ⟨st, lbl, ev, h, h0, hg, hR⟩ : ∃ st lbl ev, Endless (step (timedMutex noRewait)) (init (timedMutex noRewait) 2) st lbl ev ∧
      st 0 = ⟨false, some 0, [.notifying .post false, .asleep .wait]⟩ ∧ (∀ i, (st i).ths.length = 2 ∧ ∀ u q, u ≠ 1 → .ret u (.acq q) true ∉ ev i) ∧ ∀ k : Fin 2, Often fun i => (lbl i).1 = k.val := by
    refine endless_of_rounds (κ := Fin 2) (step := step (timedMutex noRewait))
      (P := fun s => s = ⟨false, some 0, [.notifying .post false, .asleep .wait]⟩ ∨ s = ⟨true, none, [.idle, .idle]⟩)
      (good := fun s _ es => s.ths.length = 2 ∧ ∀ u q, u ≠ 1 → .ret u (.acq q) true ∉ es) (R := fun k l _ => l.1 = k.val) 0 ?_
      (s₀ := init (timedMutex noRewait) 2) (s := ⟨false, some 0, [.notifying .post false, .asleep .wait]⟩)
      ⟨_, exec_of_run (r := (_, _)) (ls := [(0, .call (.acq .wait)), (0, .go), (0, .go), (0, .go), (0, .go), (1, .call (.acq .wait)), (1, .go), (1, .go), (0, .call (.sig .post)), (0, .go), (0, .go)]) rfl⟩ (.inl rfl)
    rintro s (rfl | rfl)
    · refine ⟨[((0, .wake 1 false), []), ((0, .go), [.ret 0 (.sig .post) true]), ((1, .go), []), ((1, .go), []), ((1, .go), []),
        ((1, .go), [.ret 1 (.acq .wait) true])],
        ⟨true, none, [.idle, .idle]⟩, ?_, .inr rfl, by intro k; match k with | 0 => simp | 1 => simp⟩
      exact ⟨⟨false, some 0, [.leave (.sig .post) true, .woken .wait false]⟩, rfl, ⟨rfl, quiet rfl⟩, ⟨false, none, [.idle, .woken .wait false]⟩, rfl,
        ⟨rfl, quiet rfl⟩, ⟨false, some 1, [.idle, .inside .wait]⟩, rfl, ⟨rfl, quiet rfl⟩, ⟨false, some 1, [.idle, .taking .wait false]⟩, rfl,
        ⟨rfl, quiet rfl⟩, ⟨true, some 1, [.idle, .leave (.acq .wait) true]⟩, rfl, ⟨rfl, quiet rfl⟩, ⟨true, none, [.idle, .idle]⟩, rfl, ⟨rfl, quiet rfl⟩, rfl⟩
    · refine ⟨[((0, .call (.acq .tryWait)), [.called 0 (.acq .tryWait)]), ((0, .go), []), ((0, .go), []), ((0, .go), [.ret 0 (.acq .tryWait) false]),
        ((1, .call (.sig .post)), [.called 1 (.sig .post)]), ((1, .go), []), ((1, .go), []), ((1, .go), []), ((1, .go), [.ret 1 (.sig .post) true]),
        ((1, .call (.acq .wait)), [.called 1 (.acq .wait)]), ((1, .go), []), ((1, .go), []), ((1, .go), []), ((1, .go), [.ret 1 (.acq .wait) true])],
        ⟨true, none, [.idle, .idle]⟩, ?_, .inr rfl, by intro k; match k with | 0 => simp | 1 => simp⟩
      exact ⟨⟨true, none, [.want .tryWait, .idle]⟩, rfl, ⟨rfl, quiet rfl⟩, ⟨true, some 0, [.inside .tryWait, .idle]⟩, rfl, ⟨rfl, quiet rfl⟩,
        ⟨true, some 0, [.leave (.acq .tryWait) false, .idle]⟩, rfl, ⟨rfl, quiet rfl⟩, ⟨true, none, [.idle, .idle]⟩, rfl, ⟨rfl, quiet rfl⟩,
        ⟨true, none, [.idle, .wantSig .post]⟩, rfl, ⟨rfl, quiet rfl⟩, ⟨true, some 1, [.idle, .sig .post]⟩, rfl, ⟨rfl, quiet rfl⟩,
        ⟨false, some 1, [.idle, .notifying .post false]⟩, rfl, ⟨rfl, quiet rfl⟩, ⟨false, some 1, [.idle, .leave (.sig .post) true]⟩, rfl, ⟨rfl, quiet rfl⟩,
        ⟨false, none, [.idle, .idle]⟩, rfl, ⟨rfl, quiet rfl⟩, ⟨false, none, [.idle, .want .wait]⟩, rfl, ⟨rfl, quiet rfl⟩,
        ⟨false, some 1, [.idle, .inside .wait]⟩, rfl, ⟨rfl, quiet rfl⟩, ⟨false, some 1, [.idle, .taking .wait false]⟩, rfl, ⟨rfl, quiet rfl⟩,
        ⟨true, some 1, [.idle, .leave (.acq .wait) true]⟩, rfl, ⟨rfl, quiet rfl⟩, ⟨true, none, [.idle, .idle]⟩, rfl, ⟨rfl, quiet rfl⟩, rfl⟩
  refine ⟨st, lbl, ev, h, ?_, ⟨_, by rw [h0]; rfl, rfl⟩, by rw [h0]; rfl, by rw [h0], fun j => (hg j).2⟩
  intro t hr i
  match t with
  | 0 => exact hR 0 i
  | 1 => exact hR 1 i
  | t + 2 =>
    obtain ⟨j, _, a, r, _, hst⟩ := hr 0
    have : (st j).ths[t + 2]? = none := List.getElem?_eq_none (by rw [(hg j).1]; omega)
    simp [step, this] at hst

end Verif.Monitor
