import Verif.Proof.ConfigUnit

/-!
# C98: the headers take the implementation that is right for the system

For every environment of macros, every list of headers and every order: what a header declares depends on the macros from outside only;
exactly one platform is taken; each class gets exactly one implementation, which the system supports; the emulations are for systems
without anything better; what is used is declared before.
-/

set_option linter.unusedSimpArgs false

namespace Verif.Config
open Verif.Preproc Macro

variable {E : Env Macro}

/-- Whatever headers are included, in whatever order: the macros and the declarations of each of them are those it has when it is
included alone, the macros from outside stay as they are, and so do the macros of headers that are not included. -/
theorem C98_any_order (E : Env Macro) (fs : List File) (saved : List Bool) :
    fs ⊆ (unit E fs saved).files ∧
    (∀ f ∈ (unit E fs saved).files, declsOf (unit E fs saved) f = declsOf (unit E [f]) f ∧
      ∀ m, ownerMacro m = some f → (unit E fs saved).env m = (unit E [f]).env m) ∧
    (∀ m, (∀ f ∈ (unit E fs saved).files, ownerMacro m ≠ some f) → (unit E fs saved).env m = E m) := by
  obtain ⟨a, b, c, d⟩ := includes_view owners text E text_scope' closed fs (saved := saved)
  refine ⟨d, fun f hf => ⟨?_, (b f hf).env⟩, fun m hm => ?_⟩
  · have : (unit E fs saved).decls.filter (fun d => d.by_ = f) = (unit E [f]).decls.filter (fun d => d.by_ = f) := (b f hf).decls
    rw [declsOf, this, declsOf]
  · cases h : ownerMacro m with
    | none => exact a m h
    | some f =>
      by_cases hf : f ∈ (unit E fs saved).files
      · exact absurd h (hm f hf)
      · exact (c f hf).env m h

/-- Exactly one platform is taken, the ABI namespace has its name, and there is no `#error`. -/
theorem C98_one_platform (h : Clean E) {fs : List File} {saved : List Bool} (hf : .config ∈ (unit E fs saved).files) :
    (∃ p ∈ [BOOST_SYNC_DETAIL_PLATFORM_POSIX, BOOST_SYNC_DETAIL_PLATFORM_WINAPI, BOOST_SYNC_DETAIL_PLATFORM_LINUX, BOOST_SYNC_DETAIL_PLATFORM_MACH],
      (unit E fs saved).env.has p = true ∧
      ∀ q ∈ [BOOST_SYNC_DETAIL_PLATFORM_POSIX, BOOST_SYNC_DETAIL_PLATFORM_WINAPI, BOOST_SYNC_DETAIL_PLATFORM_LINUX, BOOST_SYNC_DETAIL_PLATFORM_MACH],
        (unit E fs saved).env.has q = true → q = p) ∧
    ((unit E fs saved).env.has BOOST_SYNC_DETAIL_PLATFORM_WINAPI = true ↔ onWindows E) ∧
    ((unit E fs saved).env.has BOOST_SYNC_DETAIL_PLATFORM_LINUX = true ↔ onLinux E) ∧
    ((unit E fs saved).env.has BOOST_SYNC_DETAIL_PLATFORM_MACH = true ↔ onApple E) ∧
    (unit E fs saved).env.has BOOST_SYNC_DETAIL_ABI_NAMESPACE = true ∧ declsOf (unit E fs saved) .config = [] := by
  have e : ∀ m, ownerMacro m = some .config → (unit E fs saved).env.has m = (cfg E).has m := by
    intro m hm; rw [Env.has, (unit_view fs saved hf).env m hm, unit_one, config_env h]; rfl
  simp only [List.mem_cons, List.not_mem_nil, or_false, forall_eq_or_imp, forall_eq, exists_eq_or_imp, exists_eq_left,
    e BOOST_SYNC_DETAIL_PLATFORM_POSIX rfl, e BOOST_SYNC_DETAIL_PLATFORM_WINAPI rfl, e BOOST_SYNC_DETAIL_PLATFORM_LINUX rfl,
    e BOOST_SYNC_DETAIL_PLATFORM_MACH rfl, e BOOST_SYNC_DETAIL_ABI_NAMESPACE rfl]
  simp only [Env.has, cfg]
  rw [unit_decls fs saved hf, config_own h, ← platform_windows, ← platform_linux, ← platform_mach]
  cases platform E <;> simp

/-- Each class gets exactly one implementation.  It is one of this class, the system supports it, and it is an emulation only if the
system supports nothing else. -/
theorem C98_one_implementation (h : Clean E) {fs : List File} {saved : List Bool} {f : File} (hc : f ∈ classes)
    (hf : f ∈ (unit E fs saved).files) :
    ∃ i, implsOf (unit E fs saved) f = [i] ∧ i.of = f ∧ Supported E i ∧
      (i.isEmulation → ∀ j, j.of = f → Supported E j → j.isEmulation) := by
  have hd := unit_decls fs saved hf
  simp only [implsOf, hd]
  simp only [classes, List.mem_cons, List.not_mem_nil, or_false] at hc
  rcases hc with rfl | rfl | rfl | rfl | rfl | rfl | rfl | rfl
  · rw [(mutex_own h).2.2]
    by_cases hw : platform E = .windows <;> simp [hw, List.filterMap, What.impl?, Impl.of, Supported, Impl.isEmulation, ← platform_windows]
  · rw [(timedMutex_own h).2.2]
    by_cases hw : platform E = .windows <;> cases timedlock E <;> simp [hw, List.filterMap, What.impl?, Impl.of, Supported, Impl.isEmulation, ← platform_windows]
  · rw [(cv_own h).2.2]
    by_cases hw : platform E = .windows <;> simp [hw, List.filterMap, What.impl?, Impl.of, Supported, Impl.isEmulation, ← platform_windows]
  · rw [(cvAny_own h).2]
    by_cases hw : platform E = .windows <;> simp [hw, List.filterMap, What.impl?, Impl.of, Supported, Impl.isEmulation, ← platform_windows]
  · rw [semaphore_own h]
    have d := dispatch_iff (E := E)
    have q := posixSem_iff (E := E)
    by_cases hw : platform E = .windows
    · simp [hw, List.filterMap, What.impl?, Impl.of, Supported, Impl.isEmulation, ← platform_windows]
    · cases hd : dispatch E <;> cases hq : posixSem E <;> simp only [hd, hq, true_iff, Bool.false_eq_true, false_iff] at d q <;>
        simp only [hw, if_false, if_true, Bool.false_eq_true, List.map, List.filterMap, What.impl?]
      · refine ⟨_, rfl, rfl, trivial, fun _ j hj hs => ?_⟩
        cases j <;> simp only [Impl.of, reduceCtorEq] at hj <;>
          simp_all [Supported, Impl.isEmulation, ← platform_windows]
      · exact ⟨_, rfl, rfl, ⟨by rwa [← platform_windows], q⟩, fun hi => hi.elim⟩
      · exact ⟨_, rfl, rfl, d, fun hi => hi.elim⟩
      · exact ⟨_, rfl, rfl, d, fun hi => hi.elim⟩
  · rw [autoEvent_own h]
    have d := dispatch_iff (E := E)
    have q := posixSem_iff (E := E)
    by_cases hw : platform E = .windows
    · simp [hw, List.filterMap, What.impl?, Impl.of, Supported, Impl.isEmulation, ← platform_windows]
    by_cases hl : platform E = .linux
    · simp [hw, hl, List.filterMap, What.impl?, Impl.of, Supported, Impl.isEmulation, ← platform_linux]
    · cases hd : dispatch E <;> cases hq : posixSem E <;> simp only [hd, hq, true_iff, Bool.false_eq_true, false_iff] at d q <;>
        simp only [hw, hl, if_false, if_true, Bool.false_eq_true, List.map, List.filterMap, What.impl?, Bool.or_false, Bool.or_true]
      · refine ⟨_, rfl, rfl, trivial, fun _ j hj hs => ?_⟩
        cases j <;> simp only [Impl.of, reduceCtorEq] at hj <;>
          simp_all [Supported, Impl.isEmulation, ← platform_windows, ← platform_linux]
      · exact ⟨_, rfl, rfl, ⟨by rwa [← platform_windows], .inr q⟩, fun hi => hi.elim⟩
      · exact ⟨_, rfl, rfl, ⟨by rwa [← platform_windows], .inl d⟩, fun hi => hi.elim⟩
      · exact ⟨_, rfl, rfl, ⟨by rwa [← platform_windows], .inl d⟩, fun hi => hi.elim⟩
  · rw [manualEvent_own h]
    by_cases hw : platform E = .windows
    · simp [hw, List.filterMap, What.impl?, Impl.of, Supported, Impl.isEmulation, ← platform_windows]
    by_cases hl : platform E = .linux
    · simp [hw, hl, List.filterMap, What.impl?, Impl.of, Supported, Impl.isEmulation, ← platform_linux]
    · simp only [hw, hl, if_false, List.map, List.filterMap, What.impl?]
      refine ⟨_, rfl, rfl, trivial, fun _ j hj hs => ?_⟩
      cases j <;> simp only [Impl.of, reduceCtorEq] at hj <;>
        simp_all [Supported, Impl.isEmulation, ← platform_windows, ← platform_linux]
  · rw [spin_own h]
    cases spinBool E <;> simp [List.filterMap, What.impl?, Impl.of, Supported, Impl.isEmulation]

/-- A user who asks for pthreads gets nothing of Windows, no futexes and nothing of libdispatch. -/
theorem C98_use_pthread (h : Clean E) (hp : E.has BOOST_SYNC_USE_PTHREAD = true) {fs : List File} {saved : List Bool} {f : File}
    (hc : f ∈ classes) (hf : f ∈ (unit E fs saved).files) :
    ∀ i ∈ implsOf (unit E fs saved) f, i ∈ [Impl.mutexPosix, .timedMutexPosix, .cvPosix, .cvAnyGeneric, .semaphorePosix, .semaphoreEmulation,
      .autoEventSemaphore, .autoEventEmulation, .manualEventEmulation, .spinBool, .spinFlag] := by
  obtain ⟨i, hi, _, hs, _⟩ := C98_one_implementation h hc hf
  rw [hi]
  simp only [List.mem_singleton, forall_eq]
  cases i <;> simp_all [Supported, onWindows, onLinux, hasDispatch, onApple]

/-- Where a class has a member of the class of another header, that class has been declared before. -/
theorem C98_declared_before_use (E : Env Macro) (fs : List File) (saved : List Bool) {f g : File} {l : List Decl}
    (hl : ⟨f, .member (.cls g)⟩ :: l <:+ (unit E fs saved).decls) :
    ∀ d ∈ (unit E [g]).decls, d.by_ = g → d ∈ l :=
  declared_before hl

/-- An event over a semaphore is over one of the system: there is no emulation below it. -/
theorem C98_event_over_semaphore (h : Clean E) {fs : List File} {saved : List Bool} (hf : .autoEvent ∈ (unit E fs saved).files)
    (hi : .autoEventSemaphore ∈ implsOf (unit E fs saved) .autoEvent) :
    implsOf (unit E fs saved) .semaphore = [.semaphoreDispatch] ∨ implsOf (unit E fs saved) .semaphore = [.semaphorePosix] := by
  have hd := unit_decls fs saved hf
  rw [autoEvent_own h] at hd
  simp only [implsOf, hd] at hi
  by_cases hw : platform E = .windows
  · simp [hw, What.impl?] at hi
  by_cases hl : platform E = .linux
  · simp [hl, What.impl?] at hi
  cases hb : dispatch E || posixSem E
  · simp [hw, hl, hb, What.impl?] at hi
  · -- the semaphore is declared before
    simp only [hw, hl, hb, if_false, if_true] at hd
    have hsf : .semaphore ∈ (unit E fs saved).files :=
      class_included h (f := .autoEvent) (by simp) (by rw [hd]; simp)
    have hsd := unit_decls fs saved hsf
    rw [semaphore_own h] at hsd
    simp only [implsOf, hsd, hw, if_false]
    cases hD : dispatch E
    · have hP : posixSem E = true := by simpa [hD] using hb
      simp [hP, List.filterMap, What.impl?]
    · simp [List.filterMap, What.impl?]

/-- The calls of the kernel that wait and those that wake agree on the kind of futex if the system has both macros or neither. -/
theorem C98_futex_flags (hE : E.has FUTEX_WAIT_PRIVATE = E.has FUTEX_WAKE_PRIVATE) {fs : List File} {saved : List Bool}
    (hf : .futex ∈ (unit E fs saved).files) :
    ∃ p, declsOf (unit E fs saved) .futex = [.futex .wait p, .futex .timedWait p, .futex .broadcast p, .futex .signal p] := by
  refine ⟨E.has FUTEX_WAIT_PRIVATE, ?_⟩
  rw [unit_decls fs saved hf, futex_own]
  simp [hE]

/-! Examples: the hypotheses are met by real systems. -/

example : Clean (envOf linuxGcc) ∧ Clean (envOf windowsMsvc) ∧ Clean (envOf (macOf 1050)) ∧ Clean (envOf (macOf 1060)) :=
  ⟨clean_of _ (by decide), clean_of _ (by decide), clean_of _ (by decide), clean_of _ (by decide)⟩
example : (unit (envOf linuxGcc) [.autoEvent, .cvAny, .mutex]).files = [.cv, .pthread, .mutex, .cvAny, .futex, .atomic, .config, .autoEvent] := by
  decide +kernel
example : implsOf (unit (envOf linuxGcc) [.autoEvent, .cvAny, .mutex]) .autoEvent = [.autoEventFutex] := by decide +kernel
example : implsOf (unit (envOf windowsMsvc) [.cvAny, .mutex]) .mutex = [.mutexWindows] := by decide +kernel
example : implsOf (unit (envOf (macOf 1060)) [.mutex, .autoEvent]) .semaphore = [.semaphoreDispatch] := by decide +kernel
example : implsOf (unit (envOf (macOf 1050)) [.mutex, .autoEvent]) .autoEvent = [.autoEventEmulation] := by decide +kernel
example : implsOf (unit (envOf ((BOOST_SYNC_USE_PTHREAD, 1) :: linuxGcc)) [.autoEvent]) .autoEvent = [.autoEventSemaphore] := by decide +kernel
example : ∃ l, ⟨.autoEvent, .member (.cls .semaphore)⟩ :: l <:+ (unit (envOf (macOf 1060)) [.mutex, .autoEvent]).decls :=
  ⟨(unit (envOf (macOf 1060)) [.mutex, .autoEvent]).decls.drop 3, by rw [List.suffix_iff_eq_drop]; decide +kernel⟩

end Verif.Config
