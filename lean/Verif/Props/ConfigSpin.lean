import Verif.Proof.ConfigUnit

/-!
# C103: spin mutexes over lock-free booleans

/repo/include/boost/sync/detail/mutexes/spin_mutex.hpp has two classes: one tests a boolean before it sets it, "if we have lockfree
booleans", the other one is for systems without.
-/

set_option linter.unusedSimpArgs false

namespace Verif.Config
open Verif.Preproc Macro

variable {E : Env Macro}

/-- Booleans of `std::atomic` or of Boost.Atomic are always lock-free. ([atomics.lockfree] in the C++ standard) -/
def lockFree (E : Env Macro) (std : Bool) : Prop := E.val (if std then ATOMIC_BOOL_LOCK_FREE else BOOST_ATOMIC_BOOL_LOCK_FREE) = 2

/-- The macros in the spelling of the header say the same as the macros of the standard and of Boost.Atomic. -/
def SpelledAlike (E : Env Macro) : Prop :=
  E.val ATOMIC_BOOL_LOCKFREE = E.val ATOMIC_BOOL_LOCK_FREE ∧ E.val BOOST_ATOMIC_BOOL_LOCKFREE = E.val BOOST_ATOMIC_BOOL_LOCK_FREE

/-- Spin mutexes use booleans if and only if the booleans of the atomics that are used are lock-free, provided somebody defines
the macros that the header looks at.

Missing: systems where nobody does, see `C103_lock_free_refuted`. -/
theorem C103_lock_free_partial (h : Clean E) (ha : SpelledAlike E) {fs : List File} {saved : List Bool}
    (hf : .spinMutex ∈ (unit E fs saved).files) (hg : .atomic ∈ (unit E fs saved).files) {std : Bool}
    (hs : .atomicNs std ∈ declsOf (unit E fs saved) .atomic) :
    (lockFree E std → implsOf (unit E fs saved) .spinMutex = [.spinBool]) ∧
    (¬ lockFree E std → implsOf (unit E fs saved) .spinMutex = [.spinFlag]) := by
  rw [unit_decls fs saved hg, atomic_own.2] at hs
  simp at hs
  rw [implsOf, unit_decls fs saved hf, spin_own h]
  subst hs
  simp only [lockFree, spinBool, ← ha.1, ← ha.2]
  rcases Bool.eq_false_or_eq_true (stdAtomic E) with s | s <;> simp only [s, if_true, if_false, Bool.false_eq_true]
  · simp only [ha.1]
    by_cases c : E.val ATOMIC_BOOL_LOCK_FREE = 2 <;> simp [c, List.filterMap, What.impl?]
  · simp only [ha.2]
    by_cases c : E.val BOOST_ATOMIC_BOOL_LOCK_FREE = 2 <;> simp [c, List.filterMap, What.impl?]

/-- Where nobody defines the macros that the header looks at, the class over booleans is dead code. -/
theorem C103_dead_code (h : Clean E) (h1 : E.has ATOMIC_BOOL_LOCKFREE = false) (h2 : E.has BOOST_ATOMIC_BOOL_LOCKFREE = false)
    {fs : List File} {saved : List Bool} (hf : .spinMutex ∈ (unit E fs saved).files) :
    implsOf (unit E fs saved) .spinMutex = [.spinFlag] := by
  have e1 : E.val ATOMIC_BOOL_LOCKFREE = 0 := by
    simp only [Env.has] at h1; simp only [Env.val]; cases e : E ATOMIC_BOOL_LOCKFREE <;> simp_all
  have e2 : E.val BOOST_ATOMIC_BOOL_LOCKFREE = 0 := by
    simp only [Env.has] at h2; simp only [Env.val]; cases e : E BOOST_ATOMIC_BOOL_LOCKFREE <;> simp_all
  rw [implsOf, unit_decls fs saved hf, spin_own h]
  have : spinBool E = false := by simp [spinBool, e1, e2]
  simp [this, List.filterMap, What.impl?]

/-- A system whose booleans are lock-free. -/
def lockFreeLinux : List (Macro × Int) := (ATOMIC_BOOL_LOCK_FREE, 2) :: (BOOST_ATOMIC_BOOL_LOCK_FREE, 2) :: linuxGcc

/-- The macros are called `ATOMIC_BOOL_LOCK_FREE` and `BOOST_ATOMIC_BOOL_LOCK_FREE`; the header does not see that booleans are lock-free. -/
theorem C103_lock_free_refuted : ¬ (∀ E, Clean E → (∀ std, lockFree E std) → implsOf (unit E [.spinMutex]) .spinMutex = [.spinBool]) := by
  intro h
  have := h (envOf lockFreeLinux) (clean_of _ (by decide)) (by intro std; cases std <;> (unfold lockFree; decide))
  revert this; decide +kernel

/-! Examples -/

/-- The same system where somebody defines the macros of the header. -/
def spelledLinux : List (Macro × Int) := (ATOMIC_BOOL_LOCKFREE, 2) :: (BOOST_ATOMIC_BOOL_LOCKFREE, 2) :: lockFreeLinux
example : Clean (envOf spelledLinux) ∧ SpelledAlike (envOf spelledLinux) := ⟨clean_of _ (by decide), by unfold SpelledAlike; decide⟩
example : implsOf (unit (envOf spelledLinux) [.spinMutex]) .spinMutex = [.spinBool] ∧
    .atomicNs true ∈ declsOf (unit (envOf spelledLinux) [.spinMutex]) .atomic := by decide +kernel

end Verif.Config
