import Verif.Proof.Guards

/-! # C57: scoped guards -/

namespace Verif.Guards

theorem start {U : Nat → Bool} (h : Nat → Held) : Inv U ⟨h, []⟩ ∧ Match h [] ⟨h, []⟩ :=
  ⟨⟨by simp, by simp, by simp⟩, fun m => by simp [innermost], fun m _ => by simp [NotOwned]⟩

/-- However the block is left, normally or by an exception, every mutex is held exactly as before.  What is missing: blocks
in which locking again in the destructor of an unlock_guard for a mutex throws (`C57_refuted`), or in which an
unlock_guard bypasses a unique_lock of the same mutex. -/
theorem C57_balanced_partial {U : Nat → Bool} {p : Prog} (hp : Regular U p) (h : Nat → Held) {s : St}
    (hr : (run p [] ⟨h, []⟩).2 = .ok s ∨ (run p [] ⟨h, []⟩).2 = .exc s) : s.held = h ∧ s.objs = [] := by
  have hok := (run_ok p hp (start (U := U) h).1 (start (U := U) h).2).2
  have hrel : Rel ⟨h, []⟩ s := by rcases hr with hr | hr <;> (rw [hr] at hok; exact hok)
  refine ⟨funext fun m => hrel.held_eq (fun i => by simp), List.length_eq_zero_iff.mp hrel.len⟩

/-- At every point inside, the mutexes are in the state promised by the innermost guards around that point. -/
theorem C57_promise_partial {U : Nat → Bool} {p : Prog} (hp : Regular U p) (h : Nat → Held) :
    ∀ e ∈ (run p [] ⟨h, []⟩).1, Promised h e := (run_ok p hp (start (U := U) h).1 (start (U := U) h).2).1

/-- No destructor unlocks a mutex that is not locked. -/
theorem C57_no_wrong_unlock_partial {U : Nat → Bool} {p : Prog} (hp : Regular U p) (h : Nat → Held) :
    (run p [] ⟨h, []⟩).2 ≠ .ub := by
  have hok := (run_ok p hp (start (U := U) h).1 (start (U := U) h).2).2
  intro e; rw [e] at hok; exact hok

theorem regular_of_noRawUnlock {p : Prog} (hp : NoRawUnlock p) : Regular (fun _ => true) p := by
  induction p with
  | skip => trivial
  | probe => trivial
  | throw_ => trivial
  | seq p q ihp ihq => exact ⟨ihp hp.1, ihq hp.2⟩
  | tryCatch p q ihp ihq => exact ⟨ihp hp.1, ihq hp.2⟩
  | lockGuard m a f b ih => exact ih hp
  | sharedGuard m a f b ih => exact ih hp
  | unlockGuard m f b ih => exact hp.elim
  | uniqueLock m f b ih => exact ⟨rfl, ih hp⟩
  | unlockLock i f b ih => exact ih hp

/-- Without unlock_guards for mutexes (unlock_guards for unique_locks are allowed, and may fail) all this holds without
further conditions, whatever throws. -/
theorem C57_balanced_locks {p : Prog} (hp : NoRawUnlock p) (h : Nat → Held) :
    (∀ e ∈ (run p [] ⟨h, []⟩).1, Promised h e) ∧ (run p [] ⟨h, []⟩).2 ≠ .ub ∧
      ∀ s, (run p [] ⟨h, []⟩).2 = .ok s ∨ (run p [] ⟨h, []⟩).2 = .exc s → s.held = h ∧ s.objs = [] :=
  ⟨C57_promise_partial (regular_of_noRawUnlock hp) h, C57_no_wrong_unlock_partial (regular_of_noRawUnlock hp) h,
    fun _ hs => C57_balanced_partial (regular_of_noRawUnlock hp) h hs⟩

/-- The property is false of the code in general: locking again in `~unlock_guard` may throw.  The enclosing lock_guard then
unlocks a mutex that is not locked; without it the mutex stays unlocked; during the propagation of another exception the program
is terminated. -/
theorem C57_refuted :
    (run (.lockGuard 0 false false (.unlockGuard 0 true .skip)) [] ⟨fun _ => ⟨false, 0⟩, []⟩).2 = .ub ∧
    (∃ s, (run (.unlockGuard 0 true .skip) [] ⟨fun _ => ⟨true, 0⟩, []⟩).2 = .exc s ∧ (s.held 0).excl = false) ∧
    (run (.unlockGuard 0 true .throw_) [] ⟨fun _ => ⟨true, 0⟩, []⟩).2 = .terminate :=
  ⟨by simp [run, lockM, unlockM, setHeld, afterBody, lockGuardDtor, unlockGuardDtor, throwFromDtor],
   ⟨_, by simp [run, lockM, unlockM, setHeld, afterBody, unlockGuardDtor, throwFromDtor]; rfl, by simp⟩,
   by simp [run, lockM, unlockM, setHeld, afterBody, unlockGuardDtor, throwFromDtor]⟩

/-- Nested guards on three mutexes, with an exception caught inside. -/
def demo : Prog :=
  .lockGuard 1 false false (.seq (.sharedGuard 2 true false (.seq .probe (.tryCatch (.unlockGuard 1 false (.seq .probe .throw_)) .probe)))
    (.uniqueLock 3 false (.seq (.tryCatch (.unlockLock 0 true .probe) .probe) .throw_)))

def demoU (m : Nat) : Bool := m == 3

example : Regular demoU demo := by simp [Regular, demo, demoU]
example : (run demo [] ⟨fun _ => ⟨false, 0⟩, []⟩).1.length = 5 ∧ ∃ s, (run demo [] ⟨fun _ => ⟨false, 0⟩, []⟩).2 = .exc s :=
  ⟨by decide +kernel, _, rfl⟩
example : NoRawUnlock (.uniqueLock 3 false (.seq (.unlockLock 0 true .probe) .throw_)) := by simp [NoRawUnlock]
example : ((run (.uniqueLock 3 false (.seq (.unlockLock 0 true .probe) .throw_)) [] ⟨fun _ => ⟨false, 0⟩, []⟩).1.map
    fun e => (e.ctx, (e.s.held 3).excl)) = [([(3, .unlocked), (3, .lockObj)], false)] := by decide +kernel

end Verif.Guards
