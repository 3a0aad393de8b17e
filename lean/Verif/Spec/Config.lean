import Verif.Model.Config

/-!
# What the configuration headers are for

What is asked of the headers, in terms of the macros from outside and of the declarations that a translation unit ends up with.
-/

namespace Verif.Config
open Verif.Preproc Macro

/-- The header a macro is set by; `none`: not a header of this library. -/
def ownerMacro : Macro → Option File
  | BOOST_SYNC_DETAIL_PLATFORM_POSIX | BOOST_SYNC_DETAIL_PLATFORM_WINAPI | BOOST_SYNC_DETAIL_PLATFORM_LINUX
  | BOOST_SYNC_DETAIL_PLATFORM_MACH | BOOST_SYNC_USE_COMPILER_TLS | BOOST_SYNC_DETAIL_TLS | BOOST_SYNC_DETAIL_ABI_NAMESPACE
  | BOOST_SYNC_DETAIL_OPEN_ABI_NAMESPACE | BOOST_SYNC_DETAIL_NO_CONSTEXPR_WITH_NON_LITERAL_BASE
  | BOOST_SYNC_DETAIL_CONSTEXPR_WITH_NON_LITERAL_BASE => some .config
  | BOOST_SYNC_USE_STD_ATOMIC => some .atomic
  | BOOST_SYNC_DETAIL_USE_DISPATCH_SEMAPHORES | BOOST_SYNC_DETAIL_USE_POSIX_SEMAPHORES => some .semaphoreConfig
  | BOOST_SYNC_DETAIL_PTHREAD_HAS_TIMEDLOCK => some .pthread
  | BOOST_SYNC_DEFINES_MUTEX_NATIVE_HANDLE | BOOST_SYNC_DEFINES_MUTEX_CONSTEXPR_CONSTRUCTOR => some .mutex
  | BOOST_SYNC_DEFINES_TIMED_MUTEX_NATIVE_HANDLE | BOOST_SYNC_DEFINES_TIMED_MUTEX_CONSTEXPR_CONSTRUCTOR => some .timedMutex
  | BOOST_SYNC_DEFINES_CONDITION_VARIABLE_NATIVE_HANDLE | BOOST_SYNC_DEFINES_CONDITION_VARIABLE_CONSTEXPR_CONSTRUCTOR => some .cv
  | BOOST_SYNC_DEFINES_CONDITION_VARIABLE_ANY_CONSTEXPR_CONSTRUCTOR => some .cvAny
  | BOOST_SYNC_DETAIL_SPINLOCK_BOOL => some .spinMutex
  | BOOST_SYNC_DYN_LINK | BOOST_SYNC_NO_LIB | BOOST_SYNC_API | BOOST_LIB_NAME | BOOST_DYN_LINK => some .linkConfig
  | _ => none

/-- Macros that a user may define as well as the library. -/
def shared : List Macro := [BOOST_SYNC_USE_COMPILER_TLS, BOOST_SYNC_USE_STD_ATOMIC, BOOST_SYNC_DYN_LINK, BOOST_SYNC_NO_LIB]

/-- No macro that is the library's alone is defined from outside. -/
def Clean (E : Env Macro) : Prop := ∀ m, ownerMacro m ≠ none → m ∉ shared → E m = none

/-- What the header `f` declares, in order. -/
def declsOf (s : St Macro File Decl) (f : File) : List What := ((s.decls.filter (fun d => d.by_ = f)).map (·.what)).reverse

def What.impl? : What → Option Impl
  | .impl i => some i
  | _ => none
def What.member? : What → Option Ty
  | .member t => some t
  | _ => none

/-- The implementations a header takes. -/
def implsOf (s : St Macro File Decl) (f : File) : List Impl := (declsOf s f).filterMap What.impl?

/-- The data members of the class of a header. -/
def membersOf (s : St Macro File Decl) (f : File) : List Ty := (declsOf s f).filterMap What.member?

/-- The class an implementation is of. -/
def Impl.of : Impl → File
  | .mutexPosix | .mutexWindows => .mutex
  | .timedMutexPosix | .timedMutexWindows => .timedMutex
  | .cvPosix | .cvWindows => .cv
  | .cvAnyGeneric | .cvAnyWindows => .cvAny
  | .semaphoreWindows | .semaphoreDispatch | .semaphorePosix | .semaphoreEmulation => .semaphore
  | .autoEventWindows | .autoEventFutex | .autoEventSemaphore | .autoEventEmulation => .autoEvent
  | .manualEventWindows | .manualEventFutex | .manualEventEmulation => .manualEvent
  | .spinBool | .spinFlag => .spinMutex

/-- The headers of classes that come in several implementations. -/
def classes : List File := [.mutex, .timedMutex, .cv, .cvAny, .semaphore, .autoEvent, .manualEvent, .spinMutex]

/-- The system is Windows and the user does not ask for pthreads. -/
def onWindows (E : Env Macro) : Prop := E.has BOOST_WINDOWS = true ∧ E.has BOOST_SYNC_USE_PTHREAD = false
/-- The system is Linux and the user does not ask for pthreads. -/
def onLinux (E : Env Macro) : Prop :=
  (E.has linux__ = true ∨ E.has linux_ = true ∨ E.has linux = true) ∧ E.has BOOST_WINDOWS = false ∧ E.has BOOST_SYNC_USE_PTHREAD = false
/-- The system is of Apple and the user does not ask for pthreads. -/
def onApple (E : Env Macro) : Prop :=
  (E.has macintosh = true ∨ E.has APPLE = true ∨ E.has APPLE_CC = true) ∧ E.has BOOST_WINDOWS = false ∧ ¬ onLinux E ∧
    E.has BOOST_SYNC_USE_PTHREAD = false

/-- libdispatch has semaphores since Mac OS X 10.6 and iOS 4.0. -/
def hasDispatch (E : Env Macro) : Prop :=
  onApple E ∧ ((E.has MAC_OS_X_VERSION_MIN_REQUIRED = true ∧ E.val MAC_10_6 ≤ E.val MAC_OS_X_VERSION_MIN_REQUIRED) ∨
    (E.has MAC_OS_X_VERSION_MIN_REQUIRED = false ∧ E.has IPHONE_OS_VERSION_MIN_REQUIRED = true ∧
      E.val IPHONE_4_0 ≤ E.val IPHONE_OS_VERSION_MIN_REQUIRED))

/-- The system says that it has semaphores of POSIX. -/
def hasPosixSemaphores (E : Env Macro) : Prop := E.has BOOST_HAS_UNISTD_H = true ∧ 200112 ≤ E.val POSIX_SEMAPHORES

/-- The implementation can be used on this system and is one that the user allows. -/
def Supported (E : Env Macro) : Impl → Prop
  | .mutexWindows | .timedMutexWindows | .cvWindows | .cvAnyWindows | .semaphoreWindows | .autoEventWindows | .manualEventWindows => onWindows E
  | .mutexPosix | .timedMutexPosix | .cvPosix | .cvAnyGeneric => ¬ onWindows E
  | .semaphoreDispatch => hasDispatch E
  | .semaphorePosix => ¬ onWindows E ∧ hasPosixSemaphores E
  | .autoEventFutex | .manualEventFutex => onLinux E
  | .autoEventSemaphore => ¬ onWindows E ∧ (hasDispatch E ∨ hasPosixSemaphores E)
  | .semaphoreEmulation | .autoEventEmulation | .manualEventEmulation | .spinBool | .spinFlag => True

/-- Made of a mutex and a condition variable, for systems that have nothing better. -/
def Impl.isEmulation : Impl → Prop
  | .semaphoreEmulation | .autoEventEmulation | .manualEventEmulation => True
  | _ => False

/-- An environment as a list of macros; used for examples. -/
def envOf (l : List (Macro × Int)) : Env Macro := fun m => l.lookup m

theorem clean_of (l : List (Macro × Int)) (h : l.all (fun x => ownerMacro x.1 = none || shared.contains x.1) = true) : Clean (envOf l) := by
  intro m hm hs
  simp only [envOf]
  induction l with
  | nil => rfl
  | cons x l ih =>
    simp only [List.all_cons, Bool.and_eq_true] at h
    have : m ≠ x.1 := by
      rintro rfl
      have := h.1
      simp only [Bool.or_eq_true, decide_eq_true_eq, List.contains_iff_mem] at this
      exact this.elim hm hs
    obtain ⟨a, b⟩ := x
    simp only at this
    rw [List.lookup_cons]
    have : (m == a) = false := by simpa using this
    rw [this]
    exact ih h.2

/-- Linux with a recent GCC and C++11. -/
def linuxGcc : List (Macro × Int) := [(linux__, 1), (BOOST_GCC, 90300), (GNUC, 9), (GNUC_MINOR, 3), (cplusplus, 201103), (BOOST_HAS_UNISTD_H, 1),
  (POSIX_SEMAPHORES, 200809), (POSIX_TIMEOUTS, 200809), (PTHREAD_MUTEX_INITIALIZER, 1), (PTHREAD_COND_INITIALIZER, 1),
  (FUTEX_WAIT_PRIVATE, 128), (FUTEX_WAKE_PRIVATE, 129), (ATOMIC_BOOL_LOCK_FREE, 2), (BOOST_ATOMIC_BOOL_LOCK_FREE, 2)]
/-- The same with C++98. -/
def linuxGcc98 : List (Macro × Int) := (cplusplus, 199711) :: (BOOST_NO_CXX11_CONSTEXPR, 1) :: linuxGcc
/-- Windows 7 with Visual C++ 2015. -/
def windowsMsvc : List (Macro × Int) := [(BOOST_WINDOWS, 1), (BOOST_MSVC, 1900), (MSC_VER, 1900), (cplusplus, 199711),
  (BOOST_USE_WINAPI_VERSION, 0x0601), (BOOST_WINAPI_VERSION_WIN6, 0x0600)]
/-- Windows with MinGW. -/
def windowsMingw : List (Macro × Int) := [(BOOST_WINDOWS, 1), (MINGW32, 1), (BOOST_GCC, 90300), (GNUC, 9), (GNUC_MINOR, 3), (cplusplus, 201103),
  (BOOST_USE_WINAPI_VERSION, 0x0501), (BOOST_WINAPI_VERSION_WIN6, 0x0600)]
/-- Mac OS X with this deployment target. -/
def macOf (target : Int) : List (Macro × Int) := [(APPLE, 1), (APPLE_CC, 1), (BOOST_CLANG, 1), (clang, 1), (GNUC, 4), (GNUC_MINOR, 2), (cplusplus, 201103),
  (hasIncludeAtomic, 1), (BOOST_HAS_UNISTD_H, 1), (POSIX_SEMAPHORES, -1), (PTHREAD_MUTEX_INITIALIZER, 1), (PTHREAD_COND_INITIALIZER, 1),
  (MAC_10_6, 1060), (MAC_OS_X_VERSION_MIN_REQUIRED, target)]

end Verif.Config
