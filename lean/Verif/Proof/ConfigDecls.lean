import Verif.Proof.Config
import Verif.Spec.Config

/-!
# What each header declares

Each header passes the check of `Verif.Proof.Preproc`, so what it declares is a matter of its own text; here it is worked out.
-/

set_option linter.unusedSimpArgs false

namespace Verif.Config
open Verif.Preproc Macro

def owners : Owners Macro File Decl where
  mac := ownerMacro
  decl := Decl.by_
  offers := fun | .semaphoreConfig => [.config] | _ => []
  needs := fun d => match d.what with | .member (.cls g) => [g] | _ => []

theorem text_scope : ∀ f, ((Prog.file f (text f)).scope owners f []).isSome = true := by
  intro f; cases f <;> decide

theorem text_scope' (f : File) : ∃ K, (Prog.file f (text f)).scope owners f [] = some K := Option.isSome_iff_exists.1 (text_scope f)

theorem closed : ∀ f, (text f).Closed text := by
  intro f
  cases f <;> repeat' first | exact True.intro | exact rfl | refine And.intro ?_ ?_

theorem unit_one (E : Env Macro) (f : File) : unit E [f] = alone text E f := rfl

variable {E : Env Macro}

/-- Each header alone: its text, where the macros of the others are set. -/
abbrev fnd (E : Env Macro) (f : File) : Env Macro := found owners text E f
abbrev own (E : Env Macro) (f : File) : Env Macro × List Decl := (text f).own (fnd E f, [])

theorem alone_env {f : File} {m : Macro} (hm : ownerMacro m = some f) : (alone text E f).env m = (own E f).1 m :=
  let ⟨_, hK⟩ := text_scope' f; (alone_own owners text E hK (closed f)).1 m hm

theorem alone_decls (f : File) : (alone text E f).decls.filter (fun d => d.by_ = f) = (own E f).2 :=
  let ⟨_, hK⟩ := text_scope' f; (alone_own owners text E hK (closed f)).2

theorem declsOf_alone (f : File) : declsOf (alone text E f) f = ((own E f).2.map (·.what)).reverse := by
  rw [declsOf, alone_decls]

theorem Clean.cfg (h : Clean E) : ∀ m ∈ cfgMacros, E m = none := fun m hm => by
  cases m <;> first | (exfalso; revert hm; decide) | exact h _ (by decide) (by decide)

theorem found_cfg (h : Clean E) {f : File} {m : Macro} (hm : ownerMacro m = some .config) (hf : .config ≠ f) : fnd E f m = cfg E m := by
  have : (alone text E .config).env m = cfg E m := by
    have := config_run h.cfg (fs := []) (ds := []) (sv := []) (by simp)
    simp only [alone]
    show (configHpp.run (start E [])).env m = _
    simp only [start, this]
  simp only [fnd, found, owners, hm, hf, if_false, this]

theorem found_other {f g : File} {m : Macro} (hm : ownerMacro m = some g) (hf : g ≠ f) : fnd E f m = (own E g).1 m := by
  rw [← alone_env hm]; simp only [fnd, found, owners, hm, hf, if_false]

theorem found_ext {f : File} {m : Macro} (hm : ownerMacro m = none) : fnd E f m = E m := by
  simp only [fnd, found, owners, hm]

theorem found_own {f : File} {m : Macro} (hm : ownerMacro m = some f) : fnd E f m = E m := by
  simp only [fnd, found, owners, hm, if_true]

theorem found_has {f : File} {m : Macro} (hm : ownerMacro m = none) : (fnd E f).has m = E.has m := by simp only [Env.has, found_ext hm]
theorem found_val {f : File} {m : Macro} (hm : ownerMacro m = none) : (fnd E f).val m = E.val m := by simp only [Env.val, found_ext hm]

theorem found_winapi (h : Clean E) {f : File} (hf : .config ≠ f) : (fnd E f).has BOOST_SYNC_DETAIL_PLATFORM_WINAPI = decide (platform E = .windows) := by
  simp only [Env.has, found_cfg h (m := BOOST_SYNC_DETAIL_PLATFORM_WINAPI) rfl hf, cfg]; split <;> simp_all
theorem found_linux (h : Clean E) {f : File} (hf : .config ≠ f) : (fnd E f).has BOOST_SYNC_DETAIL_PLATFORM_LINUX = decide (platform E = .linux) := by
  simp only [Env.has, found_cfg h (m := BOOST_SYNC_DETAIL_PLATFORM_LINUX) rfl hf, cfg]; split <;> simp_all
theorem found_mach (h : Clean E) {f : File} (hf : .config ≠ f) : (fnd E f).has BOOST_SYNC_DETAIL_PLATFORM_MACH = decide (platform E = .mach) := by
  simp only [Env.has, found_cfg h (m := BOOST_SYNC_DETAIL_PLATFORM_MACH) rfl hf, cfg]; split <;> simp_all
theorem found_noLit (h : Clean E) {f : File} (hf : .config ≠ f) :
    (fnd E f).has BOOST_SYNC_DETAIL_NO_CONSTEXPR_WITH_NON_LITERAL_BASE = noLiteral E := by
  simp only [Env.has, found_cfg h (m := BOOST_SYNC_DETAIL_NO_CONSTEXPR_WITH_NON_LITERAL_BASE) rfl hf, cfg]; split <;> simp_all
theorem found_lit (h : Clean E) {f : File} (hf : .config ≠ f) :
    (fnd E f).val BOOST_SYNC_DETAIL_CONSTEXPR_WITH_NON_LITERAL_BASE = if noLiteral E then 0 else 1 := by
  simp only [Env.val, found_cfg h (m := BOOST_SYNC_DETAIL_CONSTEXPR_WITH_NON_LITERAL_BASE) rfl hf, cfg]; rfl

theorem own_seq (p q : P) (s) : (p ;; q).own s = q.own (p.own s) := rfl
theorem own_quiet (p : P) (s) : (quiet p).own s = p.own s := by
  have h1 : ∀ s, headerHpp.own s = s := by
    intro s; simp only [headerHpp, Prog.when, Prog.own]; repeat' split
    all_goals rfl
  have h2 : ∀ s, footerHpp.own s = s := by
    intro s; simp only [footerHpp, Prog.when, Prog.own]; repeat' split
    all_goals rfl
  simp only [quiet, Prog.own, h1, h2]

/-- detail/atomic.hpp takes `std::atomic`. -/
def stdAtomic (E : Env Macro) : Bool :=
  E.has BOOST_SYNC_USE_STD_ATOMIC ||
    (if E.has BOOST_CLANG then decide (201103 ≤ E.val cplusplus) && decide (E.val hasIncludeAtomic ≠ 0)
     else if E.has BOOST_MSVC then decide (1700 ≤ E.val BOOST_MSVC)
     else E.has BOOST_GCC && (decide (40800 ≤ E.val BOOST_GCC) && decide (201103 ≤ E.val cplusplus)))

theorem atomic_own : (own E .atomic).1.has BOOST_SYNC_USE_STD_ATOMIC = stdAtomic E ∧ (own E .atomic).2 = [⟨.atomic, .atomicNs (stdAtomic E)⟩] := by
  have h0 : (fnd E .atomic).has BOOST_SYNC_USE_STD_ATOMIC = E.has BOOST_SYNC_USE_STD_ATOMIC := by simp only [Env.has, found_own (f := .atomic) (m := BOOST_SYNC_USE_STD_ATOMIC) rfl]
  simp only [own, text, atomicBody, own_seq, own_quiet, configHpp, Prog.when, Prog.own, Cond.eval, Num.eval, h0, found_has (E := E) (f := .atomic) (m := BOOST_CLANG) rfl,
    found_has (E := E) (f := .atomic) (m := BOOST_MSVC) rfl, found_has (E := E) (f := .atomic) (m := BOOST_GCC) rfl,
    found_val (E := E) (f := .atomic) (m := BOOST_GCC) rfl, found_val (E := E) (f := .atomic) (m := BOOST_MSVC) rfl,
    found_val (E := E) (f := .atomic) (m := cplusplus) rfl, found_val (E := E) (f := .atomic) (m := hasIncludeAtomic) rfl, stdAtomic]
  rcases Bool.eq_false_or_eq_true (E.has BOOST_SYNC_USE_STD_ATOMIC) with h1 | h1
  · simp [h1, h0]
  rcases Bool.eq_false_or_eq_true (E.has BOOST_CLANG) with h2 | h2
  · by_cases a : 201103 ≤ E.val cplusplus <;> by_cases b : E.val hasIncludeAtomic = 0 <;> simp [h0, h1, h2, a, b, set_has]
  rcases Bool.eq_false_or_eq_true (E.has BOOST_MSVC) with h3 | h3
  · by_cases a : 1700 ≤ E.val BOOST_MSVC <;> simp [h0, h1, h2, h3, a, set_has]
  rcases Bool.eq_false_or_eq_true (E.has BOOST_GCC) with h4 | h4 <;> by_cases a : 40800 ≤ E.val BOOST_GCC <;>
    by_cases b : 201103 ≤ E.val cplusplus <;> simp [h0, h1, h2, h3, h4, a, b, set_has]

theorem found_std {f : File} (hf : .atomic ≠ f) : (fnd E f).has BOOST_SYNC_USE_STD_ATOMIC = stdAtomic E := by
  rw [Env.has, found_other (m := BOOST_SYNC_USE_STD_ATOMIC) rfl hf]; exact atomic_own.1

/-- semaphore_config.hpp takes semaphores of libdispatch. -/
def dispatch (E : Env Macro) : Bool :=
  decide (platform E = .mach) &&
    (if E.has MAC_OS_X_VERSION_MIN_REQUIRED then decide (E.val MAC_10_6 ≤ E.val MAC_OS_X_VERSION_MIN_REQUIRED)
     else E.has IPHONE_OS_VERSION_MIN_REQUIRED && decide (E.val IPHONE_4_0 ≤ E.val IPHONE_OS_VERSION_MIN_REQUIRED))
def posixSem (E : Env Macro) : Bool := E.has BOOST_HAS_UNISTD_H && decide (200112 ≤ E.val POSIX_SEMAPHORES)

theorem semaphoreConfig_own (h : Clean E) :
    (own E .semaphoreConfig).1.has BOOST_SYNC_DETAIL_USE_DISPATCH_SEMAPHORES = dispatch E ∧
    (own E .semaphoreConfig).1.has BOOST_SYNC_DETAIL_USE_POSIX_SEMAPHORES = (!dispatch E && posixSem E) ∧ (own E .semaphoreConfig).2 = [] := by
  have h0 : (fnd E .semaphoreConfig).has BOOST_SYNC_DETAIL_USE_DISPATCH_SEMAPHORES = false := by
    simp only [Env.has, found_own (E := E) (f := .semaphoreConfig) (m := BOOST_SYNC_DETAIL_USE_DISPATCH_SEMAPHORES) rfl,
      h BOOST_SYNC_DETAIL_USE_DISPATCH_SEMAPHORES (by decide) (by decide), Option.isSome]
  have h0' : (fnd E .semaphoreConfig).has BOOST_SYNC_DETAIL_USE_POSIX_SEMAPHORES = false := by
    simp only [Env.has, found_own (E := E) (f := .semaphoreConfig) (m := BOOST_SYNC_DETAIL_USE_POSIX_SEMAPHORES) rfl,
      h BOOST_SYNC_DETAIL_USE_POSIX_SEMAPHORES (by decide) (by decide), Option.isSome]
  simp only [own, text, semaphoreConfigBody, own_seq, own_quiet, configHpp, Prog.when, Prog.own, Cond.eval, Num.eval, Int.sub_zero, h0, found_mach h (f := .semaphoreConfig) (by decide),
    found_has (E := E) (f := .semaphoreConfig) (m := MAC_OS_X_VERSION_MIN_REQUIRED) rfl, found_val (E := E) (f := .semaphoreConfig) (m := MAC_OS_X_VERSION_MIN_REQUIRED) rfl,
    found_has (E := E) (f := .semaphoreConfig) (m := IPHONE_OS_VERSION_MIN_REQUIRED) rfl, found_val (E := E) (f := .semaphoreConfig) (m := IPHONE_OS_VERSION_MIN_REQUIRED) rfl,
    found_val (E := E) (f := .semaphoreConfig) (m := MAC_10_6) rfl, found_val (E := E) (f := .semaphoreConfig) (m := IPHONE_4_0) rfl, dispatch, posixSem]
  have e1 := found_has (E := E) (f := .semaphoreConfig) (m := BOOST_HAS_UNISTD_H) rfl
  have e2 := found_val (E := E) (f := .semaphoreConfig) (m := POSIX_SEMAPHORES) rfl
  by_cases h1 : platform E = .mach <;>
  rcases Bool.eq_false_or_eq_true (E.has MAC_OS_X_VERSION_MIN_REQUIRED) with h2 | h2 <;>
  by_cases h3 : E.val MAC_10_6 ≤ E.val MAC_OS_X_VERSION_MIN_REQUIRED <;>
  rcases Bool.eq_false_or_eq_true (E.has IPHONE_OS_VERSION_MIN_REQUIRED) with h4 | h4 <;>
  by_cases h5 : E.val IPHONE_4_0 ≤ E.val IPHONE_OS_VERSION_MIN_REQUIRED <;>
  rcases Bool.eq_false_or_eq_true (E.has BOOST_HAS_UNISTD_H) with h6 | h6 <;>
  by_cases h7 : 200112 ≤ E.val POSIX_SEMAPHORES <;>
  simp [h0, h0', e1, e2, h1, h2, h3, h4, h5, h6, h7, set_has, set_val]

theorem found_dispatch (h : Clean E) {f : File} (hf : .semaphoreConfig ≠ f) : (fnd E f).has BOOST_SYNC_DETAIL_USE_DISPATCH_SEMAPHORES = dispatch E := by
  rw [Env.has, found_other (m := BOOST_SYNC_DETAIL_USE_DISPATCH_SEMAPHORES) rfl hf]; exact (semaphoreConfig_own h).1
theorem found_posixSem (h : Clean E) {f : File} (hf : .semaphoreConfig ≠ f) :
    (fnd E f).has BOOST_SYNC_DETAIL_USE_POSIX_SEMAPHORES = (!dispatch E && posixSem E) := by
  rw [Env.has, found_other (m := BOOST_SYNC_DETAIL_USE_POSIX_SEMAPHORES) rfl hf]; exact (semaphoreConfig_own h).2.1

/-- `pthread_mutex_timedlock` is there. -/
def timedlock (E : Env Macro) : Bool := E.has POSIX_TIMEOUTS && decide (200112 ≤ E.val POSIX_TIMEOUTS)

theorem pthread_own (h : Clean E) : (own E .pthread).1.has BOOST_SYNC_DETAIL_PTHREAD_HAS_TIMEDLOCK = timedlock E ∧ (own E .pthread).2 = [] := by
  have h0 : (fnd E .pthread).has BOOST_SYNC_DETAIL_PTHREAD_HAS_TIMEDLOCK = false := by
    simp only [Env.has, found_own (E := E) (f := .pthread) (m := BOOST_SYNC_DETAIL_PTHREAD_HAS_TIMEDLOCK) rfl,
      h BOOST_SYNC_DETAIL_PTHREAD_HAS_TIMEDLOCK (by decide) (by decide), Option.isSome]
  simp only [own, text, pthreadBody, own_seq, own_quiet, configHpp, Prog.when, Prog.own, Cond.eval, Num.eval, h0, timedlock,
    found_has (E := E) (f := .pthread) (m := POSIX_TIMEOUTS) rfl, found_val (E := E) (f := .pthread) (m := POSIX_TIMEOUTS) rfl]
  rcases Bool.eq_false_or_eq_true (E.has POSIX_TIMEOUTS) with h1 | h1 <;> by_cases h2 : 200112 ≤ E.val POSIX_TIMEOUTS
  · have h3 : 0 ≤ E.val POSIX_TIMEOUTS := by omega
    simp [h0, h1, h2, h3, set_has]
  all_goals simp [h0, h1, h2, set_has]

theorem found_timedlock (h : Clean E) {f : File} (hf : .pthread ≠ f) : (fnd E f).has BOOST_SYNC_DETAIL_PTHREAD_HAS_TIMEDLOCK = timedlock E := by
  rw [Env.has, found_other (m := BOOST_SYNC_DETAIL_PTHREAD_HAS_TIMEDLOCK) rfl hf]; exact (pthread_own h).1

/-- `constexpr` constructors of classes over Windows. -/
def winConstexpr (E : Env Macro) : Bool := !E.has BOOST_NO_CXX11_CONSTEXPR && !noLiteral E
/-- `constexpr` constructors of classes over pthreads that have initializers. -/
def posixConstexpr (E : Env Macro) : Bool :=
  !E.has BOOST_NO_CXX11_UNIFIED_INITIALIZATION_SYNTAX && (!E.has BOOST_NO_CXX11_CONSTEXPR && !E.has CYGWIN)

theorem windowsCtor_own {e : Env Macro} {f m ds} (h1 : e.has BOOST_NO_CXX11_CONSTEXPR = E.has BOOST_NO_CXX11_CONSTEXPR)
    (h2 : e.has BOOST_SYNC_DETAIL_NO_CONSTEXPR_WITH_NON_LITERAL_BASE = noLiteral E)
    (h3 : e.val BOOST_SYNC_DETAIL_CONSTEXPR_WITH_NON_LITERAL_BASE = if noLiteral E then 0 else 1)
    (h5 : m ≠ BOOST_NO_CXX11_CONSTEXPR) (h6 : m ≠ BOOST_SYNC_DETAIL_CONSTEXPR_WITH_NON_LITERAL_BASE) :
    (windowsCtor f m).own (e, ds) = (if winConstexpr E then e.set m (some 1) else e, ⟨f, .ctor (winConstexpr E)⟩ :: ds) := by
  simp only [windowsCtor, Prog.when, Prog.own, Cond.eval, Num.eval, winConstexpr, h1, h2]
  rcases Bool.eq_false_or_eq_true (E.has BOOST_NO_CXX11_CONSTEXPR) with a | a <;>
    rcases Bool.eq_false_or_eq_true (noLiteral E) with b | b <;>
    simp [a, b, h1, h3, set_has, set_val, h5.symm, h6.symm]

theorem posixCtor_own {e : Env Macro} {f m ds} {ok : Cond Macro}
    (h1 : e.has BOOST_NO_CXX11_CONSTEXPR = E.has BOOST_NO_CXX11_CONSTEXPR)
    (h2 : e.has BOOST_NO_CXX11_UNIFIED_INITIALIZATION_SYNTAX = E.has BOOST_NO_CXX11_UNIFIED_INITIALIZATION_SYNTAX)
    (h3 : e.has CYGWIN = E.has CYGWIN) :
    (posixCtor f ok m).own (e, ds) =
      (if ok.eval e && posixConstexpr E then e.set m (some 1) else e, ⟨f, .ctor (ok.eval e && posixConstexpr E)⟩ :: ds) := by
  simp only [posixCtor, Prog.own]
  rcases Bool.eq_false_or_eq_true (ok.eval e) with c | c <;>
  rcases Bool.eq_false_or_eq_true (E.has BOOST_NO_CXX11_CONSTEXPR) with a | a <;>
    rcases Bool.eq_false_or_eq_true (E.has BOOST_NO_CXX11_UNIFIED_INITIALIZATION_SYNTAX) with b | b <;>
    rcases Bool.eq_false_or_eq_true (E.has CYGWIN) with d | d <;>
    simp [Cond.eval, posixConstexpr, a, b, c, d, h1, h2, h3]

theorem has_ite {c : Bool} {e : Env Macro} {m x : Macro} :
    (if c then e.set m (some 1) else e).has x = if x = m then c || e.has m else e.has x := by
  cases c <;> by_cases h : x = m <;> simp [set_has, h]

theorem Clean.own (h : Clean E) {f : File} {m : Macro} (hm : ownerMacro m = some f) (hs : m ∉ shared) : (fnd E f).has m = false := by
  simp only [Env.has, found_own hm, h m (by simp [hm]) hs, Option.isSome]

/-- The mutex has a `constexpr` constructor. -/
def mutexConstexpr (E : Env Macro) : Bool :=
  if platform E = .windows then winConstexpr E else E.has PTHREAD_MUTEX_INITIALIZER && posixConstexpr E
def cvConstexpr (E : Env Macro) : Bool :=
  if platform E = .windows then winConstexpr E else E.has PTHREAD_COND_INITIALIZER && posixConstexpr E
def timedMutexConstexpr (E : Env Macro) : Bool :=
  if platform E = .windows then winConstexpr E
  else (E.has PTHREAD_MUTEX_INITIALIZER && (timedlock E || E.has PTHREAD_COND_INITIALIZER)) && posixConstexpr E

theorem mutex_own (h : Clean E) :
    (own E .mutex).1.has BOOST_SYNC_DEFINES_MUTEX_CONSTEXPR_CONSTRUCTOR = mutexConstexpr E ∧
    (own E .mutex).1.has BOOST_SYNC_DEFINES_MUTEX_NATIVE_HANDLE = decide (platform E ≠ .windows) ∧
    (own E .mutex).2.reverse = if platform E = .windows then
        [⟨.mutex, .impl .mutexWindows⟩, ⟨.mutex, .cvCompatible⟩, ⟨.mutex, .member (.atomicU32 false)⟩, ⟨.mutex, .member (.atomicUintptr false)⟩,
          ⟨.mutex, .ctor (mutexConstexpr E)⟩]
      else
        [⟨.mutex, .impl .mutexPosix⟩, ⟨.mutex, .cvCompatible⟩, ⟨.mutex, .member .pthreadMutex⟩, ⟨.mutex, .ctor (mutexConstexpr E)⟩,
          ⟨.mutex, .nativeHandle⟩] := by
  have c1 := h.own (f := .mutex) (m := BOOST_SYNC_DEFINES_MUTEX_CONSTEXPR_CONSTRUCTOR) rfl (by decide)
  have c2 := h.own (f := .mutex) (m := BOOST_SYNC_DEFINES_MUTEX_NATIVE_HANDLE) rfl (by decide)
  have x1 := found_has (E := E) (f := .mutex) (m := BOOST_NO_CXX11_CONSTEXPR) rfl
  have x2 := found_has (E := E) (f := .mutex) (m := BOOST_NO_CXX11_UNIFIED_INITIALIZATION_SYNTAX) rfl
  have x3 := found_has (E := E) (f := .mutex) (m := CYGWIN) rfl
  have x4 := found_has (E := E) (f := .mutex) (m := PTHREAD_MUTEX_INITIALIZER) rfl
  simp only [own, text, mutexBody, configHpp, Prog.own, Cond.eval, found_winapi h (f := .mutex) (by decide), mutexConstexpr]
  by_cases hw : platform E = .windows
  · simp only [hw, decide_true, mutexWindowsHpp, configHpp, basicMutexMembers, Prog.own, own_quiet]
    rw [windowsCtor_own x1 (found_noLit h (by decide)) (found_lit h (by decide)) (by decide) (by decide)]
    simp [has_ite, c1, c2]
  · simp only [hw, decide_false, mutexPosixHpp, configHpp, pthreadHpp, Prog.own, own_quiet]
    rw [posixCtor_own (E := E) (by simp [set_has, x1]) (by simp [set_has, x2]) (by simp [set_has, x3])]
    simp only [has_ite]
    simp [set_has, c1, c2, Cond.eval, x4, hw]

theorem cv_own (h : Clean E) :
    (own E .cv).1.has BOOST_SYNC_DEFINES_CONDITION_VARIABLE_CONSTEXPR_CONSTRUCTOR = cvConstexpr E ∧
    (own E .cv).1.has BOOST_SYNC_DEFINES_CONDITION_VARIABLE_NATIVE_HANDLE = decide (platform E ≠ .windows) ∧
    (own E .cv).2.reverse = if platform E = .windows then
        [⟨.cv, .impl .cvWindows⟩, ⟨.cv, .member (.cls .mutex)⟩, ⟨.cv, .member .pointer⟩, ⟨.cv, .member .pointer⟩,
          ⟨.cv, .member (.atomicSize false)⟩, ⟨.cv, .ctor (cvConstexpr E)⟩]
      else
        [⟨.cv, .impl .cvPosix⟩, ⟨.cv, .member .pthreadCond⟩, ⟨.cv, .ctor (cvConstexpr E)⟩, ⟨.cv, .nativeHandle⟩] := by
  have c1 := h.own (f := .cv) (m := BOOST_SYNC_DEFINES_CONDITION_VARIABLE_CONSTEXPR_CONSTRUCTOR) rfl (by decide)
  have c2 := h.own (f := .cv) (m := BOOST_SYNC_DEFINES_CONDITION_VARIABLE_NATIVE_HANDLE) rfl (by decide)
  have x1 := found_has (E := E) (f := .cv) (m := BOOST_NO_CXX11_CONSTEXPR) rfl
  have x2 := found_has (E := E) (f := .cv) (m := BOOST_NO_CXX11_UNIFIED_INITIALIZATION_SYNTAX) rfl
  have x3 := found_has (E := E) (f := .cv) (m := CYGWIN) rfl
  have x4 := found_has (E := E) (f := .cv) (m := PTHREAD_COND_INITIALIZER) rfl
  simp only [own, text, cvBody, configHpp, Prog.own, Cond.eval, found_winapi h (f := .cv) (by decide), cvConstexpr]
  by_cases hw : platform E = .windows
  · simp only [hw, decide_true, cvWindowsHpp, mutexHpp, configHpp, basicCvMembers, Prog.own, own_quiet]
    rw [windowsCtor_own x1 (found_noLit h (by decide)) (found_lit h (by decide)) (by decide) (by decide)]
    simp [has_ite, c1, c2]
  · simp only [hw, decide_false, cvPosixHpp, configHpp, pthreadHpp, Prog.own, own_quiet]
    rw [posixCtor_own (E := E) (by simp [set_has, x1]) (by simp [set_has, x2]) (by simp [set_has, x3])]
    simp only [has_ite]
    simp [set_has, c1, c2, Cond.eval, x4, hw]

theorem timedMutex_own (h : Clean E) :
    (own E .timedMutex).1.has BOOST_SYNC_DEFINES_TIMED_MUTEX_CONSTEXPR_CONSTRUCTOR = timedMutexConstexpr E ∧
    (own E .timedMutex).1.has BOOST_SYNC_DEFINES_TIMED_MUTEX_NATIVE_HANDLE = (decide (platform E ≠ .windows) && timedlock E) ∧
    (own E .timedMutex).2.reverse = if platform E = .windows then
        [⟨.timedMutex, .impl .timedMutexWindows⟩, ⟨.timedMutex, .cvCompatible⟩, ⟨.timedMutex, .member (.atomicU32 false)⟩,
          ⟨.timedMutex, .member (.atomicUintptr false)⟩, ⟨.timedMutex, .ctor (timedMutexConstexpr E)⟩]
      else if timedlock E then
        [⟨.timedMutex, .impl .timedMutexPosix⟩, ⟨.timedMutex, .cvCompatible⟩, ⟨.timedMutex, .member .pthreadMutex⟩,
          ⟨.timedMutex, .ctor (timedMutexConstexpr E)⟩, ⟨.timedMutex, .nativeHandle⟩]
      else [⟨.timedMutex, .impl .timedMutexPosix⟩, ⟨.timedMutex, .member .pthreadMutex⟩, ⟨.timedMutex, .member .pthreadCond⟩,
          ⟨.timedMutex, .member .bool⟩, ⟨.timedMutex, .ctor (timedMutexConstexpr E)⟩] := by
  have c1 := h.own (f := .timedMutex) (m := BOOST_SYNC_DEFINES_TIMED_MUTEX_CONSTEXPR_CONSTRUCTOR) rfl (by decide)
  have c2 := h.own (f := .timedMutex) (m := BOOST_SYNC_DEFINES_TIMED_MUTEX_NATIVE_HANDLE) rfl (by decide)
  have x1 := found_has (E := E) (f := .timedMutex) (m := BOOST_NO_CXX11_CONSTEXPR) rfl
  have x2 := found_has (E := E) (f := .timedMutex) (m := BOOST_NO_CXX11_UNIFIED_INITIALIZATION_SYNTAX) rfl
  have x3 := found_has (E := E) (f := .timedMutex) (m := CYGWIN) rfl
  have x4 := found_has (E := E) (f := .timedMutex) (m := PTHREAD_MUTEX_INITIALIZER) rfl
  have x5 := found_has (E := E) (f := .timedMutex) (m := PTHREAD_COND_INITIALIZER) rfl
  have x6 := found_timedlock h (f := .timedMutex) (by decide)
  simp only [own, text, timedMutexBody, configHpp, Prog.own, Cond.eval, found_winapi h (f := .timedMutex) (by decide), timedMutexConstexpr]
  by_cases hw : platform E = .windows
  · simp only [hw, decide_true, timedMutexWindowsHpp, configHpp, basicMutexMembers, Prog.own, own_quiet]
    rw [windowsCtor_own x1 (found_noLit h (by decide)) (found_lit h (by decide)) (by decide) (by decide)]
    simp [has_ite, c1, c2]
  · simp only [hw, decide_false, timedMutexPosixHpp, configHpp, pthreadHpp, Prog.own, own_quiet, Prog.when, Cond.eval]
    rcases Bool.eq_false_or_eq_true (timedlock E) with t | t
    · simp only [x6, t, set_has, reduceCtorEq, if_false, Bool.not_true]
      rw [posixCtor_own (E := E) (by simp [set_has, x1]) (by simp [set_has, x2]) (by simp [set_has, x3])]
      simp only [has_ite, set_has, reduceCtorEq, if_true, if_false, c2, Option.isSome_some]
      simp [set_has, c1, c2, Cond.eval, x4, x5, x6, t, hw]
    · simp only [x6, t, set_has, reduceCtorEq, if_false, Bool.not_false]
      rw [posixCtor_own (E := E) (by simp [set_has, x1]) (by simp [set_has, x2]) (by simp [set_has, x3])]
      simp only [has_ite, set_has, reduceCtorEq, if_true, if_false, c2, Option.isSome_some]
      simp [set_has, c1, c2, Cond.eval, x4, x5, x6, t, hw]

theorem posixConstexpr_yes (h : posixConstexpr E = true) : E.has BOOST_NO_CXX11_CONSTEXPR = false := by
  simp [posixConstexpr] at h; exact h.2.1

theorem cvAny_own (h : Clean E) :
    (own E .cvAny).1.has BOOST_SYNC_DEFINES_CONDITION_VARIABLE_ANY_CONSTEXPR_CONSTRUCTOR = (mutexConstexpr E && cvConstexpr E) ∧
    (own E .cvAny).2.reverse = if platform E = .windows then
        [⟨.cvAny, .impl .cvAnyWindows⟩, ⟨.cvAny, .member (.cls .mutex)⟩, ⟨.cvAny, .member .pointer⟩, ⟨.cvAny, .member .pointer⟩,
          ⟨.cvAny, .member (.atomicSize false)⟩, ⟨.cvAny, .ctor (mutexConstexpr E && cvConstexpr E)⟩]
      else
        [⟨.cvAny, .impl .cvAnyGeneric⟩, ⟨.cvAny, .member (.cls .mutex)⟩, ⟨.cvAny, .member (.cls .cv)⟩,
          ⟨.cvAny, .ctor (mutexConstexpr E && cvConstexpr E)⟩] := by
  have c1 := h.own (f := .cvAny) (m := BOOST_SYNC_DEFINES_CONDITION_VARIABLE_ANY_CONSTEXPR_CONSTRUCTOR) rfl (by decide)
  have x1 := found_has (E := E) (f := .cvAny) (m := BOOST_NO_CXX11_CONSTEXPR) rfl
  have x2 : (fnd E .cvAny).has BOOST_SYNC_DEFINES_MUTEX_CONSTEXPR_CONSTRUCTOR = mutexConstexpr E := by
    rw [Env.has, found_other (g := .mutex) rfl (by decide)]; exact (mutex_own h).1
  have x3 : (fnd E .cvAny).has BOOST_SYNC_DEFINES_CONDITION_VARIABLE_CONSTEXPR_CONSTRUCTOR = cvConstexpr E := by
    rw [Env.has, found_other (g := .cv) rfl (by decide)]; exact (cv_own h).1
  simp only [own, text, cvAnyBody, configHpp, Prog.own, Cond.eval, found_winapi h (f := .cvAny) (by decide)]
  by_cases hw : platform E = .windows
  · simp only [hw, decide_true, cvAnyWindowsHpp, mutexHpp, configHpp, basicCvMembers, Prog.own, own_quiet]
    rw [windowsCtor_own x1 (found_noLit h (by decide)) (found_lit h (by decide)) (by decide) (by decide)]
    simp [has_ite, c1, mutexConstexpr, cvConstexpr, hw]
  · simp only [hw, decide_false, cvAnyGenericHpp, mutexHpp, cvHpp, configHpp, Prog.own, own_quiet, Cond.eval, x2, x3]
    rcases Bool.eq_false_or_eq_true (mutexConstexpr E && cvConstexpr E) with t | t
    · have : posixConstexpr E = true := by simp [mutexConstexpr, hw] at t; exact t.1.2
      simp [t, set_has, c1, x1, posixConstexpr_yes this]
    · simp [t, set_has, c1]

theorem nsMember_own {e : Env Macro} {f : File} {t : Bool → Ty} {ds} (h : e.has BOOST_SYNC_USE_STD_ATOMIC = stdAtomic E) :
    (nsMember f t).own (e, ds) = (e, ⟨f, .member (t (stdAtomic E))⟩ :: ds) := by
  simp only [nsMember, Prog.own, Cond.eval, h]; cases stdAtomic E <;> rfl

/-- The (misspelled) macro for lock-free booleans says so. -/
def spinBool (E : Env Macro) : Bool :=
  if stdAtomic E then decide (E.val ATOMIC_BOOL_LOCKFREE = 2) else decide (E.val BOOST_ATOMIC_BOOL_LOCKFREE = 2)

theorem spin_own (h : Clean E) : (own E .spinMutex).2.reverse = if spinBool E then
      [⟨.spinMutex, .impl .spinBool⟩, ⟨.spinMutex, .member (.atomicBool (stdAtomic E))⟩, ⟨.spinMutex, .ctor false⟩]
    else [⟨.spinMutex, .impl .spinFlag⟩, ⟨.spinMutex, .member (.atomicFlag (stdAtomic E))⟩, ⟨.spinMutex, .ctor false⟩] := by
  have c1 := h.own (f := .spinMutex) (m := BOOST_SYNC_DETAIL_SPINLOCK_BOOL) rfl (by decide)
  have x1 := found_std (E := E) (f := .spinMutex) (by decide)
  have x2 := found_val (E := E) (f := .spinMutex) (m := ATOMIC_BOOL_LOCKFREE) rfl
  have x3 := found_val (E := E) (f := .spinMutex) (m := BOOST_ATOMIC_BOOL_LOCKFREE) rfl
  simp only [own, text, spinMutexBody, spinMutexImplHpp, atomicHpp, configHpp, Prog.own, own_quiet, Prog.when, Cond.eval, Num.eval, x1, x2, x3, spinBool]
  rcases Bool.eq_false_or_eq_true (stdAtomic E) with s | s <;> by_cases a : E.val ATOMIC_BOOL_LOCKFREE = 2 <;>
    by_cases b : E.val BOOST_ATOMIC_BOOL_LOCKFREE = 2 <;> simp [s, a, b, c1, x1, x3, set_has, set_val, nsMember, Prog.own, Cond.eval]

theorem sharedSpin_own : (own E .sharedSpinMutex).2.reverse =
    [⟨.sharedSpinMutex, .member (.atomicU32 (stdAtomic E))⟩, ⟨.sharedSpinMutex, .ctor false⟩] := by
  simp only [own, text, sharedSpinMutexBody, atomicHpp, configHpp, Prog.own, own_quiet, nsMember_own (found_std (E := E) (f := .sharedSpinMutex) (by decide))]
  rfl

theorem semaphore_own (h : Clean E) : (own E .semaphore).2.reverse =
    if platform E = .windows then [⟨.semaphore, .impl .semaphoreWindows⟩, ⟨.semaphore, .member .handle⟩, ⟨.semaphore, .ctor false⟩]
    else if dispatch E then [⟨.semaphore, .impl .semaphoreDispatch⟩, ⟨.semaphore, .member .dispatchSemaphore⟩, ⟨.semaphore, .ctor false⟩]
    else if posixSem E then [⟨.semaphore, .impl .semaphorePosix⟩, ⟨.semaphore, .member .semT⟩, ⟨.semaphore, .ctor false⟩]
    else [⟨.semaphore, .impl .semaphoreEmulation⟩, ⟨.semaphore, .member (.cls .mutex)⟩, ⟨.semaphore, .member (.cls .cv)⟩,
      ⟨.semaphore, .member .uint⟩, ⟨.semaphore, .ctor false⟩] := by
  simp only [own, text, semaphoreBody, semaphoreConfigHpp, configHpp, Prog.own, Cond.eval, found_winapi h (f := .semaphore) (by decide),
    found_dispatch h (f := .semaphore) (by decide), found_posixSem h (f := .semaphore) (by decide)]
  by_cases hw : platform E = .windows <;> rcases Bool.eq_false_or_eq_true (dispatch E) with d | d <;>
    rcases Bool.eq_false_or_eq_true (posixSem E) with q | q <;>
    simp [hw, d, q, semaphoreWindowsHpp, semaphoreDispatchHpp, semaphorePosixHpp, semaphoreEmulationHpp, configHpp, mutexHpp, cvHpp, Prog.own, own_quiet]

theorem autoEvent_own (h : Clean E) : (own E .autoEvent).2.reverse =
    if platform E = .windows then [⟨.autoEvent, .impl .autoEventWindows⟩, ⟨.autoEvent, .member .handle⟩, ⟨.autoEvent, .ctor false⟩]
    else if platform E = .linux then
      [⟨.autoEvent, .impl .autoEventFutex⟩, ⟨.autoEvent, .member (.atomicUint (stdAtomic E))⟩, ⟨.autoEvent, .ctor false⟩]
    else if dispatch E || posixSem E then [⟨.autoEvent, .impl .autoEventSemaphore⟩, ⟨.autoEvent, .member (.cls .semaphore)⟩,
      ⟨.autoEvent, .member (.atomicI32 (stdAtomic E))⟩, ⟨.autoEvent, .ctor false⟩]
    else [⟨.autoEvent, .impl .autoEventEmulation⟩, ⟨.autoEvent, .member (.cls .mutex)⟩, ⟨.autoEvent, .member (.cls .cv)⟩,
      ⟨.autoEvent, .member .bool⟩, ⟨.autoEvent, .ctor false⟩] := by
  simp only [own, text, autoEventBody, semaphoreConfigHpp, configHpp, Prog.own, Cond.eval, found_winapi h (f := .autoEvent) (by decide),
    found_linux h (f := .autoEvent) (by decide), found_dispatch h (f := .autoEvent) (by decide), found_posixSem h (f := .autoEvent) (by decide)]
  have x := found_std (E := E) (f := .autoEvent) (by decide)
  by_cases hw : platform E = .windows <;> by_cases hl : platform E = .linux <;> rcases Bool.eq_false_or_eq_true (dispatch E) with d | d <;>
    rcases Bool.eq_false_or_eq_true (posixSem E) with q | q <;>
    simp [hw, hl, d, q, autoEventWindowsHpp, autoEventFutexHpp, autoEventSemaphoreHpp, autoEventEmulationHpp, configHpp, mutexHpp, cvHpp,
      atomicHpp, futexHpp, semaphoreHpp, Prog.own, own_quiet, nsMember_own x]

theorem manualEvent_own (h : Clean E) : (own E .manualEvent).2.reverse =
    if platform E = .windows then [⟨.manualEvent, .impl .manualEventWindows⟩, ⟨.manualEvent, .member .handle⟩, ⟨.manualEvent, .ctor false⟩]
    else if platform E = .linux then
      [⟨.manualEvent, .impl .manualEventFutex⟩, ⟨.manualEvent, .member (.atomicUint false)⟩, ⟨.manualEvent, .ctor false⟩]
    else [⟨.manualEvent, .impl .manualEventEmulation⟩, ⟨.manualEvent, .member (.cls .mutex)⟩, ⟨.manualEvent, .member (.cls .cv)⟩,
      ⟨.manualEvent, .member .bool⟩, ⟨.manualEvent, .ctor false⟩] := by
  simp only [own, text, manualEventBody, configHpp, Prog.own, Cond.eval, found_winapi h (f := .manualEvent) (by decide),
    found_linux h (f := .manualEvent) (by decide)]
  by_cases hw : platform E = .windows <;> by_cases hl : platform E = .linux <;>
    simp [hw, hl, manualEventWindowsHpp, manualEventFutexHpp, manualEventEmulationHpp, configHpp, mutexHpp, cvHpp, futexHpp, Prog.own, own_quiet]

theorem futex_own : (own E .futex).2.reverse =
    [⟨.futex, .futex .wait (E.has FUTEX_WAIT_PRIVATE)⟩, ⟨.futex, .futex .timedWait (E.has FUTEX_WAIT_PRIVATE)⟩,
     ⟨.futex, .futex .broadcast (E.has FUTEX_WAKE_PRIVATE)⟩, ⟨.futex, .futex .signal (E.has FUTEX_WAKE_PRIVATE)⟩] := by
  have x1 := found_has (E := E) (f := .futex) (m := FUTEX_WAIT_PRIVATE) rfl
  have x2 := found_has (E := E) (f := .futex) (m := FUTEX_WAKE_PRIVATE) rfl
  simp only [own, text, futexBody, configHpp, Prog.own, own_quiet, futexCall, Cond.eval, x1, x2]
  rcases Bool.eq_false_or_eq_true (E.has FUTEX_WAIT_PRIVATE) with a | a <;>
    rcases Bool.eq_false_or_eq_true (E.has FUTEX_WAKE_PRIVATE) with b | b <;> simp [a, b, x1, x2]

theorem config_own (h : Clean E) : (own E .config).2 = [] := by
  rw [← alone_decls]
  have := config_run h.cfg (fs := []) (ds := []) (sv := []) (by simp)
  show (configHpp.run (start E [])).decls.filter _ = _
  simp only [start, this, List.filter_nil]

theorem config_env (h : Clean E) : (alone text E .config).env = cfg E := by
  have := config_run h.cfg (fs := []) (ds := []) (sv := []) (by simp)
  show (configHpp.run (start E [])).env = _
  simp only [start, this]

/-- The library is taken as a shared library. -/
def dynLink (E : Env Macro) : Bool := E.has BOOST_SYNC_DYN_LINK || E.has BOOST_ALL_DYN_LINK
/-- No automatic linking. -/
def noLib (E : Env Macro) : Bool := E.has BOOST_SYNC_NO_LIB || E.has BOOST_ALL_NO_LIB

theorem linkConfig_own (h : Clean E) :
    (own E .linkConfig).1 BOOST_SYNC_API = some (if dynLink E then if E.has BOOST_SYNC_BUILDING then 2 else 1 else 0) ∧
    (own E .linkConfig).2 = if E.has BOOST_SYNC_BUILDING || noLib E then [] else [⟨.linkConfig, .autoLink (dynLink E)⟩] := by
  have x1 : (fnd E .linkConfig).has BOOST_SYNC_DYN_LINK = E.has BOOST_SYNC_DYN_LINK := by
    simp only [Env.has, found_own (f := .linkConfig) (m := BOOST_SYNC_DYN_LINK) rfl]
  have x2 : (fnd E .linkConfig).has BOOST_SYNC_NO_LIB = E.has BOOST_SYNC_NO_LIB := by
    simp only [Env.has, found_own (f := .linkConfig) (m := BOOST_SYNC_NO_LIB) rfl]
  have x3 : (fnd E .linkConfig).has BOOST_DYN_LINK = false := h.own rfl (by decide)
  have x4 : (fnd E .linkConfig).has BOOST_SYNC_API = false := h.own rfl (by decide)
  have x5 := found_has (E := E) (f := .linkConfig) (m := BOOST_ALL_DYN_LINK) rfl
  have x6 := found_has (E := E) (f := .linkConfig) (m := BOOST_ALL_NO_LIB) rfl
  have x7 := found_has (E := E) (f := .linkConfig) (m := BOOST_SYNC_BUILDING) rfl
  simp only [own, text, linkConfigBody, own_seq, configHpp, Prog.when, Prog.own, Cond.eval, x1, x5, dynLink, noLib]
  rcases Bool.eq_false_or_eq_true (E.has BOOST_SYNC_DYN_LINK) with a | a <;> rcases Bool.eq_false_or_eq_true (E.has BOOST_ALL_DYN_LINK) with b | b <;>
    rcases Bool.eq_false_or_eq_true (E.has BOOST_SYNC_NO_LIB) with c | c <;> rcases Bool.eq_false_or_eq_true (E.has BOOST_ALL_NO_LIB) with d | d <;>
    rcases Bool.eq_false_or_eq_true (E.has BOOST_SYNC_BUILDING) with e | e <;>
    simp [a, b, c, d, e, x1, x2, x3, x4, x5, x6, x7, set_has, set_self, Env.set]

end Verif.Config
