import Verif.Proof.Held
import Verif.Proof.HeldWin
import Verif.Proof.MonitorObs

/-!
# Internal mutexes are held for a bounded number of steps (C112)

`Within step Any t goal k s`: if only thread `t` takes steps from `s` on, there is always a next one, and whatever the system answers the
goal is reached after at most `k` of them.  `Call` is the same for a call that thread `t` makes in the state `s`.
-/

namespace Verif.Monitor

open Verif.Spec.Alone
open Verif.Atomic (Op Ev One SetReset)

variable {D S : Type}

/-- **C112** (emulations).  The owner of the internal mutex gives it back after at most three steps. -/
theorem C112_held (M : Mon D S) {n : Nat} {tr : List (Ev S)} {s : St D S} (h : Exec (step M) (init M n) tr s) {t : Nat} (ho : s.owner = some t) :
    Within (step M) Any t (fun s' _ => s'.owner = none) 3 s := by
  obtain ⟨pc, ht⟩ := (inv_exec h).owner t ho
  exact Hd.owner_within ht (((inv_exec h).own t pc ht).mpr ho)

/-- **C112** (emulations).  While nobody owns the internal mutex, every call returns, throws or goes to sleep after at most four steps;
calls that are not meant to wait do not go to sleep. -/
theorem C112_call (M : Mon D S) {s : St D S} {t : Nat} (ho : s.owner = none)
    (ht : s.ths[t]? = some .idle) (op : Op S) :
    Call (step M) Any t (fun s' es => Ends t op es ∨ (Sleeps t s' ∧ op ≠ .acq .tryWait ∧ ∀ x, op ≠ .sig x)) (.call op) 4 s := by
  cases op with
  | acq k =>
    refine ⟨{ s with ths := s.ths.set t (.want k) }, [.called t (.acq k)], by simp only [step, ht], Hd.within ?_⟩
    exact ⟨_, get_set ht, rfl, rfl, fun _ => ho, nofun, trivial⟩
  | sig x =>
    refine ⟨{ s with ths := s.ths.set t (.wantSig x) }, [.called t (.sig x)], by simp only [step, ht], Hd.within ?_⟩
    exact ⟨_, get_set ht, rfl, rfl, fun _ => ho, nofun, trivial⟩

/-- **C112** (emulations).  The same for a thread that is already inside a function, but not asleep. -/
theorem C112_inside (M : Mon D S) {n : Nat} {tr : List (Ev S)} {s : St D S} (h : Exec (step M) (init M n) tr s) {t : Nat} {pc : PC S}
    (ht : s.ths[t]? = some pc) (hp : pc ≠ .idle) (hs : ¬ Sleeps t s) (ho : s.owner = none ∨ s.owner = some t) :
    ∃ op, Within (step M) Any t (fun s' es => Ends t op es ∨ (Sleeps t s' ∧ op ≠ .acq .tryWait ∧ ∀ x, op ≠ .sig x)) 4 s := by
  obtain ⟨op, hop⟩ : ∃ op, Hd.opOf pc = some op := by
    cases pc <;> first | exact absurd rfl hp | exact ⟨_, rfl⟩
  exact ⟨op, Hd.within (Hd.works_of_exec h ht hop hs ho)⟩

/-- Two threads sleep in the event; the third, which posts, owns the internal mutex. -/
example : ∃ s tr, runFrom (step (autoEvent noRewait)) (init (autoEvent noRewait) 3)
    [(0, .call (.acq .wait)), (0, .go), (0, .go), (1, .call (.acq .timed)), (1, .go), (1, .go), (2, .call (.sig .post)), (2, .go)] = some (s, tr) ∧
    s.owner = some 2 ∧ Sleeps 0 s ∧ Sleeps 1 s ∧ ¬ Sleeps 2 s :=
  ⟨_, _, rfl, rfl, ⟨_, rfl⟩, ⟨_, rfl⟩, by rintro ⟨k, hk⟩; cases hk⟩

/-- With a free internal mutex: thread 0 sleeps, thread 1 is idle. -/
example : ∃ s tr, runFrom (step (manualEvent noRewait)) (init (manualEvent noRewait) 2) [(0, .call (.acq .wait)), (0, .go), (0, .go)] = some (s, tr) ∧
    s.owner = none ∧ Sleeps 0 s ∧ s.ths[1]? = some .idle := ⟨_, _, rfl, rfl, ⟨_, rfl⟩, rfl⟩

end Verif.Monitor

namespace Verif.CvAny

open Verif.Spec.Alone

/-- **C112** (generic condition_variable_any).  The owner of the internal mutex gives it back after at most four steps: it does not lock
the user's lock in between. -/
theorem C112_held {n : Nat} {tr : List Ev} {s : St} (h : Exec step (init n) tr s) {t : Nat} (ho : s.int = some t) :
    Within step Any t (fun s' _ => s'.int = none) 4 s := by
  obtain ⟨pc, ht⟩ := (inv_exec h).intLt t ho
  exact Hd.owner_within ht (((inv_exec h).int t pc ht).mpr ho)

/-- **C112** (generic condition_variable_any).  While nobody owns the internal mutex, a wait returns, throws, goes to sleep or needs the
user's lock, which somebody else owns, after at most six steps; a notification returns or throws after at most three. -/
theorem C112_call {s : St} {t : Nat} (ho : s.int = none) (ht : s.ths[t]? = some .idle) :
    (∀ k, s.user = some t → Call step Any t (fun s' es => WaitEnds t es ∨ Sleeps t s' ∨ NeedsUser t s') (.wait k) 6 s) ∧
    ∀ all, Call step Any t (fun _ es => NotifyEnds t es) (.notify all) 3 s := by
  refine ⟨fun k hu => ?_, fun all => ?_⟩
  · refine ⟨_, _, by simp only [step, ht, hu, if_true]; rfl, ?_⟩
    exact Hd.wait_within (get_set ht) rfl ho
  · refine ⟨_, _, by simp only [step, ht]; rfl, ?_⟩
    exact Hd.notify_within (get_set ht) rfl ho

/-- **C112** (generic condition_variable_any).  The same for a thread that is already inside a function, but neither asleep nor in need of
the user's lock. -/
theorem C112_inside {n : Nat} {tr : List Ev} {s : St} (h : Exec step (init n) tr s) {t : Nat} {pc : PC} (ht : s.ths[t]? = some pc)
    (hp : pc ≠ .idle ∧ pc ≠ .dead) (hs : ¬ Sleeps t s) (hu : ¬ NeedsUser t s) (ho : s.int = none ∨ s.int = some t) :
    Within step Any t (fun s' es => WaitEnds t es ∨ Sleeps t s' ∨ NeedsUser t s') 6 s ∨
    Within step Any t (fun _ es => NotifyEnds t es) 3 s := by
  have hc : Hd.canLock s pc := by
    have I := (inv_exec h).int t pc ht
    have free : pc.holdsInt = false → s.int = none := by
      intro hh
      rcases ho with ho | ho
      · exact ho
      · rw [I.mpr ho] at hh; cases hh
    cases pc <;> first
      | trivial
      | exact free rfl
      | exact Classical.byContradiction fun hn => hu ⟨⟨_, ht⟩, hn⟩
  cases pc <;> first
    | exact absurd rfl hp.1
    | exact absurd rfl hp.2
    | exact .inl (Hd.wait_within ht rfl hc)
    | exact .inr (Hd.notify_within ht rfl hc)
    | exact absurd ⟨_, ht⟩ hs

/-- Thread 0 sleeps; thread 1 notifies and owns the internal mutex. -/
example : ∃ s tr, runFrom step (init 2) [(0, .lockUser), (0, .wait .timed), (0, .go), (0, .go), (0, .go), (1, .notify true), (1, .go)] = some (s, tr) ∧
    s.int = some 1 ∧ Sleeps 0 s ∧ ¬ NeedsUser 1 s := ⟨_, _, rfl, rfl, ⟨_, rfl⟩, by rintro ⟨⟨r, hr⟩, _⟩; cases hr⟩

end Verif.CvAny

namespace Verif.CondVarPosix

open Verif.Spec.Alone

variable {D : Type}

/-- **C112** (condition_variable for pthreads).  A wait returns, throws or goes to sleep after at most four steps; notifications are
single calls of the system and possible at any time. -/
theorem C112_call (bug : Bool) {s : St D} {t : Nat} (ht : s.ths[t]? = some .idle) :
    (∀ k p, s.owner = some t → Spec.Alone.Call (step bug) Any t (fun s' es => WaitEnds t es ∨ Sleeps t s') (.wait k p) 4 s) ∧
    (∃ u s' ws, step bug s (t, .notifyOne u) = some (s', [.notified t false ws])) ∧
    ∃ s' ws, step bug s (t, .notifyAll) = some (s', [.notified t true ws]) := by
  refine ⟨fun k p ho => ?_, ?_, ?_⟩
  · cases p with
    | none =>
      refine ⟨_, _, by simp only [step, ht, ho, if_true]; rfl, Hd.within ⟨_, get_set ht, ?_, ?_, ?_⟩⟩
      · cases k <;> rfl
      · cases k <;> exact nofun
      · cases k <;> exact nofun
    | some p =>
      refine ⟨_, _, by simp only [step, ht, ho, if_true]; rfl, ?_⟩
      exact Hd.within ⟨.test k p, get_set ht, rfl, nofun, nofun⟩
  · by_cases h : s.ths.any PC.isAsleep = true
    · obtain ⟨y, hy, ha⟩ := List.any_eq_true.mp h
      obtain ⟨j, hj⟩ := List.mem_iff_getElem?.mp hy
      cases y <;> simp only [PC.isAsleep, Bool.false_eq_true] at ha
      exact ⟨some j, _, _, by simp only [step, ht, hj]; rfl⟩
    · exact ⟨none, _, _, by simp only [step, ht, h, if_false, Bool.false_eq_true]; rfl⟩
  · exact ⟨_, _, by simp only [step, ht]; rfl⟩

/-- **C112** (condition_variable for pthreads).  The same for a thread that is already inside a wait, not asleep, if it owns the mutex or
nobody does. -/
theorem C112_inside (bug : Bool) {n : Nat} {d : D} {tr : List (Ev D)} {s : St D} (h : Exec (step bug) (init n d) tr s) {t : Nat} {pc : PC D}
    (ht : s.ths[t]? = some pc) (hp : pc = .idle → False) (hs : ¬ Sleeps t s) (ho : s.owner = none ∨ s.owner = some t) :
    Within (step bug) Any t (fun s' es => WaitEnds t es ∨ Sleeps t s') 4 s := by
  refine Hd.within ⟨pc, ht, ?_, hp, ?_⟩
  · cases pc <;> first | rfl | exact absurd ⟨_, _, ht⟩ hs
  · rintro k p r rfl
    rcases ho with ho | ho
    · exact ho
    · exact absurd ho (((inv_exec h).good t _ ht).away rfl)

/-- Thread 0 was woken by thread 1 and may lock the mutex. -/
example : ∃ s tr, runFrom (step false) (init 2 (0 : Nat))
    [(0, .lock), (0, .wait .system (some (· == 1))), (0, .go), (0, .go), (1, .notifyOne (some 0))] = some (s, tr) ∧
    s.owner = none ∧ ¬ Sleeps 0 s ∧ ∃ pc, s.ths[0]? = some pc ∧ (pc = .idle → False) :=
  ⟨_, _, rfl, rfl, (by rintro ⟨k, p, hk⟩; cases hk), _, rfl, nofun⟩

end Verif.CondVarPosix

namespace Verif.WinCv

open Verif.Spec.Alone

/-- **C112** (condition variables of Windows).  The owner of the internal mutex gives it back after at most three steps more than there are
waiter states: the loops look at each waiter state at most once, and the user's lock is not locked in between. -/
theorem C112_held {n : Nat} {tr : List Ev} {s : St} (h : Exec step (init n) tr s) {t : Nat} (ho : s.owner = some t) :
    Within step Any t (fun s' _ => s'.owner = none) (s.nodes.length + 3) s := Hd.owner_within (good_exec h) ho

/-- **C112** (condition variables of Windows).  While nobody owns the internal mutex, a wait returns, throws, gets to the wait of the system
or needs the user's lock, which somebody else owns, after at most six steps more than there are waiter states; a notification returns
after at most four more. -/
theorem C112_call {n : Nat} {tr : List Ev} {s : St} (h : Exec step (init n) tr s) {t : Nat} (ho : s.owner = none) (ht : s.ths[t]? = some .idle) :
    (∀ k, s.user = some t →
      Call step Any t (fun s' es => WaitEnds t es ∨ Sleeps t s' ∨ NeedsUser t s') (.callWait k) (s.nodes.length + 6) s) ∧
    ∀ all, Call step Any t (fun _ es => NotifyEnds t es) (.callNotify all) (s.nodes.length + 4) s := by
  have hg := good_exec h
  refine ⟨fun k hu => ?_, fun all => ?_⟩
  · have hs : ∃ pc, step s (t, .callWait k) = some ({ s with ths := s.ths.set t pc }, [.called t k]) ∧ Hd.inWait pc = true ∧ ∀ r, pc ≠ .relock r := by
      cases k
      · exact ⟨.wEnter .wait, by simp only [step, ht, hu, if_true], rfl, nofun⟩
      · exact ⟨.wEnter .rel, by simp only [step, ht, hu, if_true], rfl, nofun⟩
      · exact ⟨.wTimer, by simp only [step, ht, hu, if_true], rfl, nofun⟩
    obtain ⟨pc, hst, hw, hr⟩ := hs
    exact ⟨_, _, hst, Hd.wait_within (good_step hg (step_sound hst)) (get_set ht) hw (fun r hc => absurd hc (hr r)) (.inl ho)⟩
  · have hst : step s (t, .callNotify all) = some ({ s with ths := s.ths.set t (.nLoad all) }, [.notify t all]) := by simp only [step, ht]
    exact ⟨_, _, hst, Hd.notify_within (good_step hg (step_sound hst)) (get_set ht) rfl (.inl ho)⟩

/-- **C112** (condition variables of Windows).  The same for a thread that is already inside a function, but neither in the wait of the
system nor in need of the user's lock. -/
theorem C112_inside {n : Nat} {tr : List Ev} {s : St} (h : Exec step (init n) tr s) {t : Nat} {pc : PC} (ht : s.ths[t]? = some pc)
    (hp : pc ≠ .idle) (hs : ¬ Sleeps t s) (hu : ¬ NeedsUser t s) (ho : s.owner = none ∨ s.owner = some t) :
    Within step Any t (fun s' es => WaitEnds t es ∨ Sleeps t s' ∨ NeedsUser t s') (s.nodes.length + 6) s ∨
    Within step Any t (fun _ es => NotifyEnds t es) (s.nodes.length + 4) s := by
  have hg := good_exec h
  have hr : ∀ r, pc = .relock r → s.user = none := by
    rintro r rfl
    exact Classical.byContradiction fun hn => hu ⟨⟨_, ht⟩, hn⟩
  cases pc <;> first
    | exact absurd rfl hp
    | exact .inl (Hd.wait_within hg ht rfl hr ho)
    | exact .inr (Hd.notify_within hg ht rfl ho)
    | exact absurd ⟨_, _, ht⟩ hs

/-- Two threads wait, a third is in the middle of `notify_all` and owns the internal mutex. -/
example : ∃ s tr, runFrom step (init 3)
    [(0, .userLock), (0, .callWait .wait), (0, .go), (0, .go), (0, .go), (0, .go),
     (1, .userLock), (1, .callWait .abs), (1, .go), (1, .go), (1, .go), (1, .go), (1, .go), (1, .go),
     (2, .callNotify true), (2, .go), (2, .go), (2, .go)] = some (s, tr) ∧
    s.owner = some 2 ∧ Sleeps 0 s ∧ Sleeps 1 s ∧ s.nodes.length = 1 := ⟨_, _, rfl, rfl, ⟨_, _, rfl⟩, ⟨_, _, rfl⟩, rfl⟩

end Verif.WinCv
