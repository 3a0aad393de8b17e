import Verif.Proof.ConfigUnit

/-!
# C101: the macros that describe classes tell the truth

`BOOST_SYNC_DEFINES_..._CONSTEXPR_CONSTRUCTOR`, `BOOST_SYNC_DEFINES_..._NATIVE_HANDLE` and `BOOST_SYNC_DETAIL_TLS`, in every translation
unit, whatever headers it includes in whatever order.
-/

set_option linter.unusedSimpArgs false

namespace Verif.Config
open Verif.Preproc Macro

variable {E : Env Macro}

private theorem te {b : Bool} : (true = b) ↔ (b = true) := eq_comm

/-- The classes with a macro about their default constructor. -/
def constexprMacros : List (File × Macro) :=
  [(.mutex, BOOST_SYNC_DEFINES_MUTEX_CONSTEXPR_CONSTRUCTOR), (.timedMutex, BOOST_SYNC_DEFINES_TIMED_MUTEX_CONSTEXPR_CONSTRUCTOR),
   (.cv, BOOST_SYNC_DEFINES_CONDITION_VARIABLE_CONSTEXPR_CONSTRUCTOR), (.cvAny, BOOST_SYNC_DEFINES_CONDITION_VARIABLE_ANY_CONSTEXPR_CONSTRUCTOR)]

/-- The classes with a macro about `native_handle`. -/
def nativeMacros : List (File × Macro) :=
  [(.mutex, BOOST_SYNC_DEFINES_MUTEX_NATIVE_HANDLE), (.timedMutex, BOOST_SYNC_DEFINES_TIMED_MUTEX_NATIVE_HANDLE),
   (.cv, BOOST_SYNC_DEFINES_CONDITION_VARIABLE_NATIVE_HANDLE)]

/-- Members of this type can be initialized by a `constexpr` constructor in this translation unit. -/
def ConstInit (E : Env Macro) (u : St Macro File Decl) : Ty → Prop
  | .pthreadMutex => E.has PTHREAD_MUTEX_INITIALIZER = true
  | .pthreadCond => E.has PTHREAD_COND_INITIALIZER = true
  | .pointer | .bool | .uint => True
  | .cls g => .ctor true ∈ declsOf u g
  -- the base classes of `boost::atomic` are not literal types
  | .atomicU32 false | .atomicUintptr false | .atomicSize false => E.has BOOST_MSVC = false ∧ ¬ (E.has BOOST_WINDOWS = true ∧ E.has clang = true)
  | _ => False

/-- The macro is defined if and only if the default constructor is `constexpr`. -/
theorem C101_constexpr_macro (h : Clean E) {fs : List File} {saved : List Bool} {f : File} {m : Macro} (hm : (f, m) ∈ constexprMacros)
    (hf : f ∈ (unit E fs saved).files) :
    (unit E fs saved).env.has m = true ↔ .ctor true ∈ declsOf (unit E fs saved) f := by
  rw [unit_decls fs saved hf]
  simp only [constexprMacros, List.mem_cons, Prod.mk.injEq, List.not_mem_nil, or_false] at hm
  rcases hm with ⟨rfl, rfl⟩ | ⟨rfl, rfl⟩ | ⟨rfl, rfl⟩ | ⟨rfl, rfl⟩ <;> rw [Env.has, unit_has hf rfl]
  · have := (mutex_own h).1
    rw [Env.has] at this
    rw [this, (mutex_own h).2.2]; split <;> simp [te]
  · have := (timedMutex_own h).1
    rw [Env.has] at this
    rw [this, (timedMutex_own h).2.2]; repeat' split
    all_goals simp [te]
  · have := (cv_own h).1
    rw [Env.has] at this
    rw [this, (cv_own h).2.2]; split <;> simp [te]
  · have := (cvAny_own h).1
    rw [Env.has] at this
    rw [this, (cvAny_own h).2]; split <;> simp [te]

/-- A `constexpr` constructor can be: the compiler has `constexpr`, and all members can be initialized by constants. -/
theorem C101_constexpr_members (h : Clean E) {fs : List File} {saved : List Bool} {f : File} (hf : f ∈ (unit E fs saved).files)
    (hk : f ≠ .source) (hc : .ctor true ∈ declsOf (unit E fs saved) f) :
    E.has BOOST_NO_CXX11_CONSTEXPR = false ∧ ∀ t ∈ membersOf (unit E fs saved) f, ConstInit E (unit E fs saved) t := by
  have hd := unit_decls fs saved hf
  have win : winConstexpr E = true → E.has BOOST_NO_CXX11_CONSTEXPR = false ∧ E.has BOOST_MSVC = false ∧
      (E.has BOOST_WINDOWS = true → E.has clang = false) := by
    simp only [winConstexpr, noLiteral]
    cases E.has BOOST_NO_CXX11_CONSTEXPR <;> cases E.has BOOST_MSVC <;> cases E.has BOOST_WINDOWS <;> cases E.has clang <;> simp
  have pos := posixConstexpr_yes (E := E)
  have hmutex : ∀ {f}, .member (.cls .mutex) ∈ declsOf (unit E fs saved) f → mutexConstexpr E = true →
      .ctor true ∈ declsOf (unit E fs saved) .mutex := by
    intro f hm hc
    rw [unit_decls fs saved (class_included h (by simp) hm), (mutex_own h).2.2]; split <;> simp [hc]
  have hcv : ∀ {f}, .member (.cls .cv) ∈ declsOf (unit E fs saved) f → cvConstexpr E = true →
      .ctor true ∈ declsOf (unit E fs saved) .cv := by
    intro f hm hc
    rw [unit_decls fs saved (class_included h (by simp) hm), (cv_own h).2.2]; split <;> simp [hc]
  cases f
  · rw [hd, config_own h] at hc; simp at hc
  · rw [hd, List.map_reverse, atomic_own.2] at hc; simp at hc
  · rw [hd, (semaphoreConfig_own h).2.2] at hc; simp at hc
  · rw [hd, (pthread_own h).2] at hc; simp at hc
  · rw [hd, futex_own] at hc; simp at hc
  · rw [hd, (linkConfig_own h).2] at hc; revert hc; split <;> simp
  · rw [(mutex_own h).2.2] at hd
    rw [membersOf, hd]; rw [hd] at hc
    by_cases hw : platform E = .windows <;> simp [hw, mutexConstexpr, te] at hc <;> simp [hw, List.filterMap, What.member?, ConstInit]
    · exact win hc
    · exact ⟨pos hc.2, hc.1⟩
  · rw [(timedMutex_own h).2.2] at hd
    rw [membersOf, hd]; rw [hd] at hc
    by_cases hw : platform E = .windows
    · simp [hw, timedMutexConstexpr, te] at hc; simp [hw, List.filterMap, What.member?, ConstInit]
      exact win hc
    · cases ht : timedlock E <;> simp [hw, ht, timedMutexConstexpr, te] at hc <;> simp [hw, ht, List.filterMap, What.member?, ConstInit]
      · exact ⟨pos hc.2, hc.1⟩
      · exact ⟨pos hc.2, hc.1⟩
  · rw [hd, spin_own h] at hc; revert hc; split <;> simp
  · rw [hd, sharedSpin_own] at hc; simp at hc
  · rw [(cv_own h).2.2] at hd
    by_cases hw : platform E = .windows
    · simp only [hw, if_true] at hd
      have hm := hmutex (f := .cv) (by rw [hd]; simp)
      rw [hd] at hc
      rw [membersOf, hd]
      simp [hw, cvConstexpr, mutexConstexpr, te] at hc hm
      simp [List.filterMap, What.member?, ConstInit]
      exact ⟨(win hc).1, hm hc, (win hc).2⟩
    · simp only [hw, if_false] at hd
      rw [hd] at hc
      rw [membersOf, hd]
      simp [hw, cvConstexpr, te] at hc
      simp [List.filterMap, What.member?, ConstInit]
      exact ⟨pos hc.2, hc.1⟩
  · rw [(cvAny_own h).2] at hd
    by_cases hw : platform E = .windows
    · simp only [hw, if_true] at hd
      have hm := hmutex (f := .cvAny) (by rw [hd]; simp)
      rw [hd] at hc
      rw [membersOf, hd]
      simp [hw, cvConstexpr, mutexConstexpr, te] at hc hm
      simp [List.filterMap, What.member?, ConstInit]
      exact ⟨(win hc).1, hm hc, (win hc).2⟩
    · simp only [hw, if_false] at hd
      have hm := hmutex (f := .cvAny) (by rw [hd]; simp)
      have hv := hcv (f := .cvAny) (by rw [hd]; simp)
      rw [hd] at hc
      rw [membersOf, hd]
      simp [te] at hc
      simp [List.filterMap, What.member?, ConstInit]
      refine ⟨?_, hm hc.1, hv hc.2⟩
      have := hc.1; simp [mutexConstexpr, hw] at this
      exact pos this.2
  · rw [hd, semaphore_own h] at hc; revert hc; repeat' split
    all_goals simp
  · rw [hd, autoEvent_own h] at hc; revert hc; repeat' split
    all_goals simp
  · rw [hd, manualEvent_own h] at hc; revert hc; repeat' split
    all_goals simp
  · exact absurd rfl hk

/-- The macro is defined if and only if there is a `native_handle`. -/
theorem C101_native_handle_macro (h : Clean E) {fs : List File} {saved : List Bool} {f : File} {m : Macro} (hm : (f, m) ∈ nativeMacros)
    (hf : f ∈ (unit E fs saved).files) :
    (unit E fs saved).env.has m = true ↔ .nativeHandle ∈ declsOf (unit E fs saved) f := by
  rw [unit_decls fs saved hf]
  simp only [nativeMacros, List.mem_cons, Prod.mk.injEq, List.not_mem_nil, or_false] at hm
  rcases hm with ⟨rfl, rfl⟩ | ⟨rfl, rfl⟩ | ⟨rfl, rfl⟩ <;> rw [Env.has, unit_has hf rfl]
  · have := (mutex_own h).2.1
    rw [Env.has] at this
    rw [this, (mutex_own h).2.2]; split <;> simp_all
  · have := (timedMutex_own h).2.1
    rw [Env.has] at this
    rw [this, (timedMutex_own h).2.2]; repeat' split
    all_goals simp_all
  · have := (cv_own h).2.1
    rw [Env.has] at this
    rw [this, (cv_own h).2.2]; split <;> simp_all

/-- The condition variable over pthreads takes the native handle of the mutex: mutexes that claim to work with it have one. -/
theorem C101_compatible_mutex (h : Clean E) {fs : List File} {saved : List Bool} {f : File} (hm : f ∈ [File.mutex, .timedMutex])
    (hf : f ∈ (unit E fs saved).files) (hv : .cv ∈ (unit E fs saved).files) (hi : .cvPosix ∈ implsOf (unit E fs saved) .cv) :
    .cvCompatible ∈ declsOf (unit E fs saved) f ↔ .nativeHandle ∈ declsOf (unit E fs saved) f := by
  rw [unit_decls fs saved hf]
  rw [implsOf, unit_decls fs saved hv, (cv_own h).2.2] at hi
  have hw : platform E ≠ .windows := by
    intro hw; simp [hw, What.impl?] at hi
  simp only [List.mem_cons, List.not_mem_nil, or_false] at hm
  rcases hm with rfl | rfl
  · rw [(mutex_own h).2.2]; simp [hw]
  · rw [(timedMutex_own h).2.2]; cases timedlock E <;> simp [hw]

/-- `BOOST_SYNC_DETAIL_TLS` is defined where `BOOST_SYNC_USE_COMPILER_TLS` says that there are thread local variables of the compiler,
and that is so only with a compiler that has them. -/
theorem C101_tls (h : Clean E) {fs : List File} {saved : List Bool} (hf : .config ∈ (unit E fs saved).files) :
    ((unit E fs saved).env.has BOOST_SYNC_DETAIL_TLS = true ↔ (unit E fs saved).env.has BOOST_SYNC_USE_COMPILER_TLS = true) ∧
    ((unit E fs saved).env.has BOOST_SYNC_DETAIL_TLS = true → E.has GNUC = true ∨ E.has SUNPRO_CC = true ∨ E.has BOOST_MSVC = true) := by
  simp only [Env.has, unit_cfg h hf (m := BOOST_SYNC_DETAIL_TLS) rfl, unit_cfg h hf (m := BOOST_SYNC_USE_COMPILER_TLS) rfl]
  simp only [cfg]
  rcases Bool.eq_false_or_eq_true (tlsAsked E) with t | t <;> rcases Bool.eq_false_or_eq_true (E.has GNUC) with a | a <;>
    rcases Bool.eq_false_or_eq_true (E.has SUNPRO_CC) with b | b <;> rcases Bool.eq_false_or_eq_true (E.has BOOST_MSVC) with c | c <;>
    rcases Bool.eq_false_or_eq_true (E.has BOOST_SYNC_USE_COMPILER_TLS) with d | d <;> simp only [a, b, c, d, t, Env.has] at * <;> simp_all

/-! Examples -/

example : (unit (envOf linuxGcc) [.cvAny]).env.has BOOST_SYNC_DEFINES_CONDITION_VARIABLE_ANY_CONSTEXPR_CONSTRUCTOR = true := by decide +kernel
example : (unit (envOf linuxGcc98) [.cvAny]).env.has BOOST_SYNC_DEFINES_CONDITION_VARIABLE_ANY_CONSTEXPR_CONSTRUCTOR = false := by decide +kernel
example : .ctor true ∈ declsOf (unit (envOf windowsMingw) [.cv]) .cv ∧ .cls .mutex ∈ membersOf (unit (envOf windowsMingw) [.cv]) .cv := by decide +kernel
example : .ctor true ∉ declsOf (unit (envOf windowsMsvc) [.cv]) .cv := by decide +kernel
example : .cvCompatible ∉ declsOf (unit (envOf (macOf 1060)) [.cv, .timedMutex]) .timedMutex ∧
    .cvPosix ∈ implsOf (unit (envOf (macOf 1060)) [.cv, .timedMutex]) .cv := by decide +kernel
example : (unit (envOf windowsMsvc) [.cv]).env.has BOOST_SYNC_DETAIL_TLS = true := by decide +kernel

end Verif.Config
