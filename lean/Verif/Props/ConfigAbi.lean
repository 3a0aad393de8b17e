import Verif.Proof.ConfigUnit

/-!
# C99: the ABI namespace tells layouts apart

Translation units whose classes are in the ABI namespace of the same name may be linked together and share objects, so the classes must
have the same members in them.  That is so for mutexes, condition variables and manual reset events.  It is not so for semaphores and
auto reset events (the deployment target of Mac OS X is not part of the name) and for spin mutexes and auto reset events (whether
`std::atomic` is used is not part of the name).
-/

set_option linter.unusedSimpArgs false

namespace Verif.Config
open Verif.Preproc Macro

variable {E E' : Env Macro}

/-- Two translation units that include the header of a class, with the same name for the ABI namespace. -/
structure Linked (E E' : Env Macro) (u u' : St Macro File Decl) (f : File) : Prop where
  unit : ∃ fs saved, u = Config.unit E fs saved
  unit' : ∃ fs saved, u' = Config.unit E' fs saved
  clean : Clean E
  clean' : Clean E'
  config : .config ∈ u.files
  config' : .config ∈ u'.files
  here : f ∈ u.files
  here' : f ∈ u'.files
  name : u.env BOOST_SYNC_DETAIL_ABI_NAMESPACE = u'.env BOOST_SYNC_DETAIL_ABI_NAMESPACE

theorem Linked.platform {u u' : St Macro File Decl} {f : File} (h : Linked E E' u u' f) : platform E = Config.platform E' := by
  obtain ⟨fs, sv, rfl⟩ := h.unit
  obtain ⟨fs', sv', rfl⟩ := h.unit'
  have := h.name
  rw [unit_cfg h.clean h.config rfl, unit_cfg h.clean' h.config' rfl] at this
  simp only [cfg, Option.some.injEq] at this
  revert this
  cases Config.platform E <;> cases Config.platform E' <;> simp <;> split <;> simp [List.filterMap, What.member?]

theorem Linked.members {u u' : St Macro File Decl} {f : File} (h : Linked E E' u u' f) :
    membersOf u f = ((own E f).2.reverse.map (·.what)).filterMap What.member? ∧
    membersOf u' f = ((own E' f).2.reverse.map (·.what)).filterMap What.member? := by
  obtain ⟨fs, sv, rfl⟩ := h.unit
  obtain ⟨fs', sv', rfl⟩ := h.unit'
  exact ⟨by rw [membersOf, unit_decls fs sv h.here], by rw [membersOf, unit_decls fs' sv' h.here']⟩

/-- Mutexes, condition variables and manual reset events: same name, same members.  The classes of their members are among them. -/
theorem C99_layout_partial {u u' : St Macro File Decl} {f : File} (hf : f ∈ [File.mutex, .cv, .cvAny, .manualEvent])
    (h : Linked E E' u u' f) :
    membersOf u f = membersOf u' f ∧ ∀ g, .cls g ∈ membersOf u f → g ∈ [File.mutex, .cv] := by
  have hp := h.platform
  rw [h.members.1, h.members.2]
  have c := h.clean; have c' := h.clean'
  simp only [List.mem_cons, List.not_mem_nil, or_false] at hf
  rcases hf with rfl | rfl | rfl | rfl
  · rw [(mutex_own c).2.2, (mutex_own c').2.2, hp]; split <;> simp [List.filterMap, What.member?]
  · rw [(cv_own c).2.2, (cv_own c').2.2, hp]; split <;> simp [List.filterMap, What.member?]
  · rw [(cvAny_own c).2, (cvAny_own c').2, hp]; split <;> simp [List.filterMap, What.member?]
  · rw [manualEvent_own c, manualEvent_own c', hp]; repeat' split
    all_goals simp [List.filterMap, What.member?]

/-- Timed mutexes: same members where the system says the same about `pthread_mutex_timedlock`. -/
theorem C99_timed_mutex_partial {u u' : St Macro File Decl} (h : Linked E E' u u' .timedMutex)
    (hs : 200112 ≤ E.val POSIX_TIMEOUTS ↔ 200112 ≤ E'.val POSIX_TIMEOUTS) : membersOf u .timedMutex = membersOf u' .timedMutex := by
  have hp := h.platform
  rw [h.members.1, h.members.2, (timedMutex_own h.clean).2.2, (timedMutex_own h.clean').2.2, hp]
  have t : timedlock E = timedlock E' := by
    have v : ∀ E : Env Macro, timedlock E = decide (200112 ≤ E.val POSIX_TIMEOUTS) := by
      intro E
      cases hE : E POSIX_TIMEOUTS <;> simp [timedlock, Env.has, Env.val, hE]
    rw [v, v]; simp only [hs]
  rw [t]
  split
  · simp [List.filterMap, What.member?]
  · split <;> simp [List.filterMap, What.member?]

/-- Semaphores: same members where the same semaphores of the system are found. -/
theorem C99_semaphore_partial {u u' : St Macro File Decl} (h : Linked E E' u u' .semaphore) (hd : hasDispatch E ↔ hasDispatch E')
    (hq : hasPosixSemaphores E ↔ hasPosixSemaphores E') : membersOf u .semaphore = membersOf u' .semaphore := by
  have hp := h.platform
  have d : dispatch E = dispatch E' := by rw [Bool.eq_iff_iff, dispatch_iff, dispatch_iff, hd]
  have q : posixSem E = posixSem E' := by rw [Bool.eq_iff_iff, posixSem_iff, posixSem_iff, hq]
  rw [h.members.1, h.members.2, semaphore_own h.clean, semaphore_own h.clean', hp, d, q]

/-- Auto reset events and spin mutexes: same members where, moreover, both units use `std::atomic` or neither does. -/
theorem C99_atomic_partial {u u' : St Macro File Decl} {f : File} (hf : f ∈ [File.autoEvent, .spinMutex, .sharedSpinMutex])
    (h : Linked E E' u u' f) (ha : .atomic ∈ u.files) (ha' : .atomic ∈ u'.files)
    (hs : u.env.has BOOST_SYNC_USE_STD_ATOMIC = u'.env.has BOOST_SYNC_USE_STD_ATOMIC) (hd : hasDispatch E ↔ hasDispatch E')
    (hq : hasPosixSemaphores E ↔ hasPosixSemaphores E')
    (hb : E.val ATOMIC_BOOL_LOCKFREE = E'.val ATOMIC_BOOL_LOCKFREE ∧ E.val BOOST_ATOMIC_BOOL_LOCKFREE = E'.val BOOST_ATOMIC_BOOL_LOCKFREE) :
    membersOf u f = membersOf u' f := by
  have hp := h.platform
  have d : dispatch E = dispatch E' := by rw [Bool.eq_iff_iff, dispatch_iff, dispatch_iff, hd]
  have q : posixSem E = posixSem E' := by rw [Bool.eq_iff_iff, posixSem_iff, posixSem_iff, hq]
  rw [h.members.1, h.members.2]
  have c := h.clean; have c' := h.clean'
  have s : stdAtomic E = stdAtomic E' := by
    obtain ⟨fs, sv, rfl⟩ := h.unit
    obtain ⟨fs', sv', rfl⟩ := h.unit'
    rw [Env.has, Env.has, unit_has ha rfl, unit_has ha' rfl] at hs
    rw [← atomic_own.1, ← atomic_own.1]; exact hs
  have b : spinBool E = spinBool E' := by simp only [spinBool, s, hb]
  simp only [List.mem_cons, List.not_mem_nil, or_false] at hf
  rcases hf with rfl | rfl | rfl
  · rw [autoEvent_own c, autoEvent_own c', hp, d, q, s]
  · rw [spin_own c, spin_own c', b, s]
  · rw [sharedSpin_own, sharedSpin_own, s]

/-- Semaphores: units for Mac OS X 10.5 and for 10.6 have the namespace `mach` both, and different members.  So have auto reset events. -/
theorem C99_layout_refuted :
    ∃ E E' u u', Linked E E' u u' .semaphore ∧ Linked E E' u u' .autoEvent ∧
      membersOf u .semaphore ≠ membersOf u' .semaphore ∧ membersOf u .autoEvent ≠ membersOf u' .autoEvent :=
  ⟨envOf (macOf 1050), envOf (macOf 1060), unit (envOf (macOf 1050)) [.semaphore, .autoEvent], unit (envOf (macOf 1060)) [.semaphore, .autoEvent],
    ⟨⟨_, _, rfl⟩, ⟨_, _, rfl⟩, clean_of _ (by decide), clean_of _ (by decide), by decide +kernel, by decide +kernel, by decide +kernel,
      by decide +kernel, by decide +kernel⟩,
    ⟨⟨_, _, rfl⟩, ⟨_, _, rfl⟩, clean_of _ (by decide), clean_of _ (by decide), by decide +kernel, by decide +kernel, by decide +kernel,
      by decide +kernel, by decide +kernel⟩, by decide +kernel, by decide +kernel⟩

/-- Spin mutexes: units in C++98 and in C++11 on Linux have the namespace `linux_` both; one has a `boost::atomic_flag`, the other a
`std::atomic_flag`. -/
theorem C99_spin_refuted :
    ∃ E E' u u', Linked E E' u u' .spinMutex ∧ .atomicFlag false ∈ membersOf u .spinMutex ∧ .atomicFlag true ∈ membersOf u' .spinMutex :=
  ⟨envOf linuxGcc98, envOf linuxGcc, unit (envOf linuxGcc98) [.spinMutex], unit (envOf linuxGcc) [.spinMutex],
    ⟨⟨_, _, rfl⟩, ⟨_, _, rfl⟩, clean_of _ (by decide), clean_of _ (by decide), by decide +kernel, by decide +kernel, by decide +kernel,
      by decide +kernel, by decide +kernel⟩, by decide +kernel, by decide +kernel⟩

/-- Two units on Linux that differ in the version of C++ agree on the mutex. -/
example : ∃ u u', Linked (envOf linuxGcc98) (envOf linuxGcc) u u' .mutex ∧ membersOf u .mutex = [.pthreadMutex] ∧
    (200112 ≤ (envOf linuxGcc98).val POSIX_TIMEOUTS ↔ 200112 ≤ (envOf linuxGcc).val POSIX_TIMEOUTS) :=
  ⟨unit (envOf linuxGcc98) [.mutex], unit (envOf linuxGcc) [.cvAny],
    ⟨⟨_, _, rfl⟩, ⟨_, _, rfl⟩, clean_of _ (by decide), clean_of _ (by decide), by decide +kernel, by decide +kernel, by decide +kernel,
      by decide +kernel, by decide +kernel⟩, by decide +kernel, by decide⟩

end Verif.Config
