import Verif.Base.Preproc

/-!
# Configuration: which implementation is compiled where

The conditional parts of the headers, as programs of the small preprocessor `Verif.Preproc`.

Simplifications:
* macros that come from the compiler, from the command line, from Boost.Config, Boost.WinAPI or from headers of the system are part of
  the environment from the start; that a header of the system defines them only once it is included is not modelled (Boost.Config
  includes `<unistd.h>` where there is one);
* an implementation file (`detail/mutexes/mutex_posix.hpp` and so on) is included from one place only, so its include guard is left
  out: its inclusion is recorded as a declaration of the header that includes it;
* of the headers that an implementation file includes, those that neither decide anything nor define a class with data members
  (exceptions, locks, time traits, pause, throw_exception) are left out;
* of the declarations, the data members, the default constructor and what macros promise to users are kept.
-/

namespace Verif.Config
open Verif.Preproc

/-- The macros.  Those up to `BOOST_EMBTC` are never set by the library.
Numbers stand for values: ABI namespaces posix 1, linux_ 2, winnt6 3, winnt5 4, mach 5; `BOOST_SYNC_DETAIL_TLS` is 1 for `__thread`
and 2 for `__declspec(thread)`; `BOOST_SYNC_API` is 0 if empty, 1 for `BOOST_SYMBOL_IMPORT`, 2 for `BOOST_SYMBOL_EXPORT`;
`BOOST_SYNC_DETAIL_CONSTEXPR_WITH_NON_LITERAL_BASE` is 1 for `BOOST_CONSTEXPR` and 0 if empty; the way namespaces are opened is 1 for
`inline`, 2 for `__extension__ inline`, 3 for a namespace with a using directive.
/repo/include/boost/sync/detail/config.hpp:25-119, /repo/include/boost/sync/detail/atomic.hpp:14-46,
/repo/include/boost/sync/detail/semaphore_config.hpp:18-44, /repo/include/boost/sync/detail/link_config.hpp:25-54 and the files cited
below.  `__has_include(<atomic>)` (detail/atomic.hpp:19) is the macro `hasIncludeAtomic`. -/
inductive Macro
  -- the user, the compiler, Boost.Config, the system
  | BOOST_SYNC_USE_PTHREAD | BOOST_WINDOWS | linux__ | linux_ | linux | macintosh | APPLE | APPLE_CC
  | BOOST_USE_WINAPI_VERSION | BOOST_WINAPI_VERSION_WIN6 | GNUC | GNUC_MINOR | SUNPRO_CC | BOOST_MSVC | clang | BOOST_CLANG | BOOST_GCC
  | cplusplus | hasIncludeAtomic | MAC_OS_X_VERSION_MIN_REQUIRED | MAC_10_6 | IPHONE_OS_VERSION_MIN_REQUIRED | IPHONE_4_0
  | BOOST_HAS_UNISTD_H | POSIX_SEMAPHORES | POSIX_TIMEOUTS | PTHREAD_MUTEX_INITIALIZER | PTHREAD_COND_INITIALIZER
  | BOOST_NO_CXX11_UNIFIED_INITIALIZATION_SYNTAX | BOOST_NO_CXX11_CONSTEXPR | BOOST_NO_CXX11_INLINE_NAMESPACES | CYGWIN
  | ATOMIC_BOOL_LOCKFREE | BOOST_ATOMIC_BOOL_LOCKFREE | ATOMIC_BOOL_LOCK_FREE | BOOST_ATOMIC_BOOL_LOCK_FREE
  | FUTEX_WAIT_PRIVATE | FUTEX_WAKE_PRIVATE
  | BOOST_ALL_DYN_LINK | BOOST_ALL_NO_LIB | BOOST_SYNC_BUILDING | BOOST_SYNC_STATIC_LINK
  | BOOST_SYNC_ENABLE_WARNINGS | MSC_VER | INTEL_COMPILER | ICL | ICC | ECC
  | MINGW32 | WIN64 | MINGW64 | MINGW64_VERSION_MAJOR | UNDER_CE
  -- detail/config.hpp
  | BOOST_SYNC_DETAIL_PLATFORM_POSIX | BOOST_SYNC_DETAIL_PLATFORM_WINAPI | BOOST_SYNC_DETAIL_PLATFORM_LINUX
  | BOOST_SYNC_DETAIL_PLATFORM_MACH | BOOST_SYNC_USE_COMPILER_TLS | BOOST_SYNC_DETAIL_TLS | BOOST_SYNC_DETAIL_ABI_NAMESPACE
  | BOOST_SYNC_DETAIL_OPEN_ABI_NAMESPACE | BOOST_SYNC_DETAIL_NO_CONSTEXPR_WITH_NON_LITERAL_BASE
  | BOOST_SYNC_DETAIL_CONSTEXPR_WITH_NON_LITERAL_BASE
  -- detail/atomic.hpp
  | BOOST_SYNC_USE_STD_ATOMIC
  -- detail/semaphore_config.hpp
  | BOOST_SYNC_DETAIL_USE_DISPATCH_SEMAPHORES | BOOST_SYNC_DETAIL_USE_POSIX_SEMAPHORES
  -- detail/pthread.hpp
  | BOOST_SYNC_DETAIL_PTHREAD_HAS_TIMEDLOCK
  -- mutexes and condition variables
  | BOOST_SYNC_DEFINES_MUTEX_NATIVE_HANDLE | BOOST_SYNC_DEFINES_MUTEX_CONSTEXPR_CONSTRUCTOR
  | BOOST_SYNC_DEFINES_TIMED_MUTEX_NATIVE_HANDLE | BOOST_SYNC_DEFINES_TIMED_MUTEX_CONSTEXPR_CONSTRUCTOR
  | BOOST_SYNC_DEFINES_CONDITION_VARIABLE_NATIVE_HANDLE | BOOST_SYNC_DEFINES_CONDITION_VARIABLE_CONSTEXPR_CONSTRUCTOR
  | BOOST_SYNC_DEFINES_CONDITION_VARIABLE_ANY_CONSTEXPR_CONSTRUCTOR
  | BOOST_SYNC_DETAIL_SPINLOCK_BOOL
  -- detail/link_config.hpp
  | BOOST_SYNC_DYN_LINK | BOOST_SYNC_NO_LIB | BOOST_SYNC_API | BOOST_LIB_NAME | BOOST_DYN_LINK
  deriving DecidableEq, Repr

/-- The headers: detail/config.hpp, detail/atomic.hpp, detail/semaphore_config.hpp, detail/pthread.hpp, detail/futex.hpp,
detail/link_config.hpp, mutexes/mutex.hpp, mutexes/timed_mutex.hpp, mutexes/spin_mutex.hpp, mutexes/shared_spin_mutex.hpp,
condition_variables/condition_variable.hpp, condition_variables/condition_variable_any.hpp, semaphore.hpp,
events/auto_reset_event.hpp, events/manual_reset_event.hpp (all in /repo/include/boost/sync).  `source` is a source file of the library
(/repo/src), which is not included by anything. -/
inductive File
  | config | atomic | semaphoreConfig | pthread | futex | linkConfig
  | mutex | timedMutex | spinMutex | sharedSpinMutex | cv | cvAny | semaphore | autoEvent | manualEvent
  | source
  deriving DecidableEq, Repr

/-- The implementation files in /repo/include/boost/sync/detail. -/
inductive Impl
  | mutexPosix | mutexWindows | timedMutexPosix | timedMutexWindows | cvPosix | cvWindows | cvAnyGeneric | cvAnyWindows
  | semaphoreWindows | semaphoreDispatch | semaphorePosix | semaphoreEmulation
  | autoEventWindows | autoEventFutex | autoEventSemaphore | autoEventEmulation
  | manualEventWindows | manualEventFutex | manualEventEmulation
  | spinBool | spinFlag
  deriving DecidableEq, Repr

/-- Types of data members; the member functions cited for each class below.  `std` tells `std::atomic` from `boost::atomic`. -/
inductive Ty
  | pthreadMutex | pthreadCond | semT | dispatchSemaphore | handle | pointer | bool | uint
  | atomicU32 (std : Bool) | atomicUintptr (std : Bool) | atomicSize (std : Bool) | atomicUint (std : Bool) | atomicI32 (std : Bool)
  | atomicBool (std : Bool) | atomicFlag (std : Bool)
  /-- the class of another header -/
  | cls (f : File)
  deriving DecidableEq, Repr

/-- The calls of detail/futex.hpp.
/repo/include/boost/sync/detail/futex.hpp:56-115 -/
inductive FutexCall
  | wait | timedWait | broadcast | signal
  deriving DecidableEq, Repr

/-- What is declared. -/
inductive What
  /-- `#error` -/
  | error
  /-- an implementation file is included -/
  | impl (i : Impl)
  /-- a data member of the class of this header -/
  | member (t : Ty)
  /-- the default constructor of the class of this header -/
  | ctor (isConstexpr : Bool)
  /-- `native_handle()`, `_is_condition_variable_compatible` -/
  | nativeHandle | cvCompatible
  /-- a call of the kernel, with or without the flag for futexes of one process -/
  | futex (c : FutexCall) (priv : Bool)
  /-- `atomic_ns` is `std` or `boost` -/
  | atomicNs (std : Bool)
  /-- auto_link.hpp of Boost.Config is included; with `BOOST_DYN_LINK` or not -/
  | autoLink (dyn : Bool)
  /-- the manager of thread specific pointers of tss_pthread.cpp, of tss_windows.cpp -/
  | tssPthread | tssWindows
  /-- the hooks for the end of threads of tss_windows_dll.cpp, of tss_windows_pe.cpp -/
  | tssHookDll | tssHookPe
  /-- the context of a thread is in a variable of the compiler, in a slot of the system -/
  | tssVariable | tssSlot
  deriving DecidableEq, Repr

/-- A declaration and the header that makes it. -/
structure Decl where
  by_ : File
  what : What
  deriving DecidableEq, Repr

abbrev P := Prog Macro File Decl
open Macro Prog

/-- `__GNUC__ * 100 + __GNUC_MINOR__`: /repo/include/boost/sync/detail/header.hpp:43, footer.hpp:15 -/
def gccVersion : Num Macro := .add (.mul (.mac GNUC) (.lit 100)) (.mac GNUC_MINOR)

/-- /repo/include/boost/sync/detail/header.hpp:11-61; of the pragmas the `push` ones. -/
def headerHpp : P :=
  .when (.not (.defd BOOST_SYNC_ENABLE_WARNINGS))
    (.cond (.defd MSC_VER) .push
    (.when (.and (.defd GNUC) (.and (.not (.or (.defd INTEL_COMPILER) (.or (.defd ICL) (.or (.defd ICC) (.defd ECC)))))
        (.ge gccVersion (.lit 406)))) .push))

/-- /repo/include/boost/sync/detail/footer.hpp:9-21 -/
def footerHpp : P :=
  .when (.not (.defd BOOST_SYNC_ENABLE_WARNINGS))
    (.cond (.defd MSC_VER) .pop
    (.when (.and (.defd GNUC) (.ge gccVersion (.lit 406))) .pop))

/-- The contents of a file between header.hpp and footer.hpp, as in all of the files cited with it. -/
def quiet (p : P) : P := headerHpp ;; p ;; footerHpp

/-- /repo/include/boost/sync/detail/config.hpp:25-48: the platform. -/
def platformPart : P :=
  .cond (.defd BOOST_SYNC_USE_PTHREAD) (.define BOOST_SYNC_DETAIL_PLATFORM_POSIX 1)
  (.cond (.defd BOOST_WINDOWS) (.define BOOST_SYNC_DETAIL_PLATFORM_WINAPI 1)
  (.cond (.or (.defd linux__) (.or (.defd linux_) (.defd linux))) (.define BOOST_SYNC_DETAIL_PLATFORM_LINUX 1)
  (.cond (.or (.defd macintosh) (.or (.defd APPLE) (.defd APPLE_CC))) (.define BOOST_SYNC_DETAIL_PLATFORM_MACH 1)
  (.define BOOST_SYNC_DETAIL_PLATFORM_POSIX 1))))

/-- /repo/include/boost/sync/detail/config.hpp:50-65: thread local variables of the compiler. -/
def tlsPart : P :=
  .when (.not (.defd BOOST_SYNC_USE_COMPILER_TLS))
    (.when (.and (.defd BOOST_SYNC_DETAIL_PLATFORM_WINAPI) (.ge (.mac BOOST_USE_WINAPI_VERSION) (.mac BOOST_WINAPI_VERSION_WIN6)))
      (.define BOOST_SYNC_USE_COMPILER_TLS 1)) ;;
  .when (.defd BOOST_SYNC_USE_COMPILER_TLS)
    (.cond (.or (.defd GNUC) (.defd SUNPRO_CC)) (.define BOOST_SYNC_DETAIL_TLS 1)
    (.cond (.defd BOOST_MSVC) (.define BOOST_SYNC_DETAIL_TLS 2)
    (.undef BOOST_SYNC_USE_COMPILER_TLS)))

/-- /repo/include/boost/sync/detail/config.hpp:67-81: the name of the ABI namespace. -/
def abiPart : P :=
  .cond (.defd BOOST_SYNC_DETAIL_PLATFORM_POSIX) (.define BOOST_SYNC_DETAIL_ABI_NAMESPACE 1)
  (.cond (.defd BOOST_SYNC_DETAIL_PLATFORM_LINUX) (.define BOOST_SYNC_DETAIL_ABI_NAMESPACE 2)
  (.cond (.defd BOOST_SYNC_DETAIL_PLATFORM_WINAPI)
    (.cond (.ge (.mac BOOST_USE_WINAPI_VERSION) (.mac BOOST_WINAPI_VERSION_WIN6)) (.define BOOST_SYNC_DETAIL_ABI_NAMESPACE 3)
      (.define BOOST_SYNC_DETAIL_ABI_NAMESPACE 4))
  (.cond (.defd BOOST_SYNC_DETAIL_PLATFORM_MACH) (.define BOOST_SYNC_DETAIL_ABI_NAMESPACE 5)
  (.decl ⟨.config, .error⟩))))

/-- /repo/include/boost/sync/detail/config.hpp:83-104: how the ABI namespace is opened. -/
def openPart : P :=
  .cond (.not (.defd BOOST_NO_CXX11_INLINE_NAMESPACES)) (.define BOOST_SYNC_DETAIL_OPEN_ABI_NAMESPACE 1)
  (.cond (.and (.defd BOOST_GCC) (.ge (.mac BOOST_GCC) (.lit 40400))) (.define BOOST_SYNC_DETAIL_OPEN_ABI_NAMESPACE 2)
  (.define BOOST_SYNC_DETAIL_OPEN_ABI_NAMESPACE 3))

/-- /repo/include/boost/sync/detail/config.hpp:106-117 -/
def constexprPart : P :=
  .when (.or (.defd BOOST_MSVC) (.and (.defd BOOST_WINDOWS) (.defd clang)))
    (.define BOOST_SYNC_DETAIL_NO_CONSTEXPR_WITH_NON_LITERAL_BASE 1) ;;
  .cond (.not (.defd BOOST_SYNC_DETAIL_NO_CONSTEXPR_WITH_NON_LITERAL_BASE))
    (.define BOOST_SYNC_DETAIL_CONSTEXPR_WITH_NON_LITERAL_BASE 1)
    (.define BOOST_SYNC_DETAIL_CONSTEXPR_WITH_NON_LITERAL_BASE 0)

/-- /repo/include/boost/sync/detail/config.hpp:16-119 -/
def configBody : P := platformPart ;; tlsPart ;; abiPart ;; openPart ;; constexprPart
/-- `#include <boost/sync/detail/config.hpp>` with the include guard /repo/include/boost/sync/detail/config.hpp:16-17 -/
def configHpp : P := .file .config configBody

/-- /repo/include/boost/sync/detail/atomic.hpp:12-72 -/
def atomicBody : P :=
  configHpp ;;
  .when (.not (.defd BOOST_SYNC_USE_STD_ATOMIC))
    (.cond (.defd BOOST_CLANG)
      (.when (.and (.ge (.mac cplusplus) (.lit 201103)) (.nonzero (.mac hasIncludeAtomic))) (.define BOOST_SYNC_USE_STD_ATOMIC 1))
    (.cond (.defd BOOST_MSVC)
      (.when (.ge (.mac BOOST_MSVC) (.lit 1700)) (.define BOOST_SYNC_USE_STD_ATOMIC 1))
    (.when (.defd BOOST_GCC)
      (.when (.and (.ge (.mac BOOST_GCC) (.lit 40800)) (.ge (.mac cplusplus) (.lit 201103))) (.define BOOST_SYNC_USE_STD_ATOMIC 1))))) ;;
  quiet (.cond (.defd BOOST_SYNC_USE_STD_ATOMIC) (.decl ⟨.atomic, .atomicNs true⟩) (.decl ⟨.atomic, .atomicNs false⟩))
/-- `#include <boost/sync/detail/atomic.hpp>`, include guard /repo/include/boost/sync/detail/atomic.hpp:9-10 -/
def atomicHpp : P := .file .atomic atomicBody

/-- A data member whose type is in `atomic_ns`: /repo/include/boost/sync/detail/atomic.hpp:58-66 -/
def nsMember (f : File) (t : Bool → Ty) : P :=
  .cond (.defd BOOST_SYNC_USE_STD_ATOMIC) (.decl ⟨f, .member (t true)⟩) (.decl ⟨f, .member (t false)⟩)

/-- /repo/include/boost/sync/detail/semaphore_config.hpp:12-44 -/
def semaphoreConfigBody : P :=
  configHpp ;;
  .when (.defd BOOST_SYNC_DETAIL_PLATFORM_MACH)
    (.cond (.defd MAC_OS_X_VERSION_MIN_REQUIRED)
      (.when (.ge (.mac MAC_OS_X_VERSION_MIN_REQUIRED) (.mac MAC_10_6)) (.define BOOST_SYNC_DETAIL_USE_DISPATCH_SEMAPHORES 1))
    (.when (.defd IPHONE_OS_VERSION_MIN_REQUIRED)
      (.when (.ge (.mac IPHONE_OS_VERSION_MIN_REQUIRED) (.mac IPHONE_4_0)) (.define BOOST_SYNC_DETAIL_USE_DISPATCH_SEMAPHORES 1)))) ;;
  .when (.and (.not (.defd BOOST_SYNC_DETAIL_USE_DISPATCH_SEMAPHORES)) (.defd BOOST_HAS_UNISTD_H))
    (.when (.ge (.sub (.mac POSIX_SEMAPHORES) (.lit 0)) (.lit 200112)) (.define BOOST_SYNC_DETAIL_USE_POSIX_SEMAPHORES 1))
/-- `#include <boost/sync/detail/semaphore_config.hpp>`, include guard lines 9-10 of
/repo/include/boost/sync/detail/semaphore_config.hpp:9-10 -/
def semaphoreConfigHpp : P := .file .semaphoreConfig semaphoreConfigBody

/-- /repo/include/boost/sync/detail/pthread.hpp:21-37; the functions for `EINTR` and the clock are modelled elsewhere. -/
def pthreadBody : P :=
  configHpp ;;
  quiet (.when (.defd POSIX_TIMEOUTS)
    (.when (.and (.ge (.mac POSIX_TIMEOUTS) (.lit 0)) (.ge (.mac POSIX_TIMEOUTS) (.lit 200112)))
      (.when (.not (.defd BOOST_SYNC_DETAIL_PTHREAD_HAS_TIMEDLOCK)) (.define BOOST_SYNC_DETAIL_PTHREAD_HAS_TIMEDLOCK 1))))
/-- `#include <boost/sync/detail/pthread.hpp>`, include guard /repo/include/boost/sync/detail/pthread.hpp:18-19 -/
def pthreadHpp : P := .file .pthread pthreadBody

/-- The flag of one call: /repo/include/boost/sync/detail/futex.hpp:61-65 and the like. -/
def futexCall (m : Macro) (c : FutexCall) : P :=
  .cond (.defd m) (.decl ⟨.futex, .futex c true⟩) (.decl ⟨.futex, .futex c false⟩)

/-- /repo/include/boost/sync/detail/futex.hpp:55-117 -/
def futexBody : P :=
  configHpp ;;
  quiet (futexCall FUTEX_WAIT_PRIVATE .wait ;; futexCall FUTEX_WAIT_PRIVATE .timedWait ;;
    futexCall FUTEX_WAKE_PRIVATE .broadcast ;; futexCall FUTEX_WAKE_PRIVATE .signal)
/-- `#include <boost/sync/detail/futex.hpp>`, include guard /repo/include/boost/sync/detail/futex.hpp:18-19 -/
def futexHpp : P := .file .futex futexBody

/-- /repo/include/boost/sync/detail/link_config.hpp:19-54; auto_link.hpp of Boost.Config undefines the two macros it is told by. -/
def linkConfigBody : P :=
  configHpp ;;
  .when (.and (.not (.defd BOOST_SYNC_DYN_LINK)) (.defd BOOST_ALL_DYN_LINK)) (.define BOOST_SYNC_DYN_LINK 1) ;;
  .when (.and (.not (.defd BOOST_SYNC_NO_LIB)) (.defd BOOST_ALL_NO_LIB)) (.define BOOST_SYNC_NO_LIB 1) ;;
  .cond (.not (.defd BOOST_SYNC_BUILDING))
    (.when (.defd BOOST_SYNC_DYN_LINK) (.define BOOST_SYNC_API 1) ;;
     .when (.not (.defd BOOST_SYNC_NO_LIB))
      (.define BOOST_LIB_NAME 1 ;;
       .when (.defd BOOST_SYNC_DYN_LINK) (.define BOOST_DYN_LINK 1) ;;
       .cond (.defd BOOST_DYN_LINK) (.decl ⟨.linkConfig, .autoLink true⟩) (.decl ⟨.linkConfig, .autoLink false⟩) ;;
       .undef BOOST_LIB_NAME ;; .undef BOOST_DYN_LINK))
    (.when (.defd BOOST_SYNC_DYN_LINK) (.define BOOST_SYNC_API 2)) ;;
  .when (.not (.defd BOOST_SYNC_API)) (.define BOOST_SYNC_API 0)
/-- `#include <boost/sync/detail/link_config.hpp>`, include guard /repo/include/boost/sync/detail/link_config.hpp:16-17 -/
def linkConfigHpp : P := .file .linkConfig linkConfigBody

/-- The default constructor of a class over pthreads with a constant initializer: `ok` tells if there is one, `m` is the macro that
promises `constexpr`.
/repo/include/boost/sync/detail/mutexes/mutex_posix.hpp:53-80, /repo/include/boost/sync/detail/mutexes/timed_mutex_posix.hpp:68-111,
/repo/include/boost/sync/detail/condition_variables/condition_variable_posix.hpp:57-82 -/
def posixCtor (f : File) (ok : Cond Macro) (m : Macro) : P :=
  .cond ok
    (.cond (.not (.defd BOOST_NO_CXX11_UNIFIED_INITIALIZATION_SYNTAX))
      (.cond (.and (.not (.defd BOOST_NO_CXX11_CONSTEXPR)) (.not (.defd CYGWIN)))
        (.define m 1 ;; .decl ⟨f, .ctor true⟩)
        (.decl ⟨f, .ctor false⟩))
      (.decl ⟨f, .ctor false⟩))
    (.decl ⟨f, .ctor false⟩)

/-- The default constructor of a class over Windows; it is `constexpr` if `BOOST_SYNC_DETAIL_CONSTEXPR_WITH_NON_LITERAL_BASE` is
`BOOST_CONSTEXPR` and that is not empty.
/repo/include/boost/sync/detail/mutexes/mutex_windows.hpp:43-47, /repo/include/boost/sync/detail/mutexes/timed_mutex_windows.hpp:57-61,
/repo/include/boost/sync/detail/condition_variables/condition_variable_windows.hpp:48-52,
/repo/include/boost/sync/detail/condition_variables/condition_variable_any_windows.hpp:44-48 -/
def windowsCtor (f : File) (m : Macro) : P :=
  .when (.and (.not (.defd BOOST_NO_CXX11_CONSTEXPR)) (.not (.defd BOOST_SYNC_DETAIL_NO_CONSTEXPR_WITH_NON_LITERAL_BASE))) (.define m 1) ;;
  .cond (.and (.eq (.mac BOOST_SYNC_DETAIL_CONSTEXPR_WITH_NON_LITERAL_BASE) (.lit 1)) (.not (.defd BOOST_NO_CXX11_CONSTEXPR)))
    (.decl ⟨f, .ctor true⟩) (.decl ⟨f, .ctor false⟩)

/-- The data members of `basic_mutex`: /repo/include/boost/sync/detail/mutexes/basic_mutex_windows.hpp:60-62 -/
def basicMutexMembers (f : File) : P := .decl ⟨f, .member (.atomicU32 false)⟩ ;; .decl ⟨f, .member (.atomicUintptr false)⟩

/-- /repo/include/boost/sync/detail/mutexes/mutex_posix.hpp:22-127 -/
def mutexPosixHpp : P :=
  .decl ⟨.mutex, .impl .mutexPosix⟩ ;; configHpp ;; pthreadHpp ;;
  quiet (.define BOOST_SYNC_DEFINES_MUTEX_NATIVE_HANDLE 1 ;; .decl ⟨.mutex, .cvCompatible⟩ ;; .decl ⟨.mutex, .member .pthreadMutex⟩ ;;
    posixCtor .mutex (.defd PTHREAD_MUTEX_INITIALIZER) BOOST_SYNC_DEFINES_MUTEX_CONSTEXPR_CONSTRUCTOR ;; .decl ⟨.mutex, .nativeHandle⟩)

/-- /repo/include/boost/sync/detail/mutexes/mutex_windows.hpp:20-74 -/
def mutexWindowsHpp : P :=
  .decl ⟨.mutex, .impl .mutexWindows⟩ ;; configHpp ;;
  quiet (.decl ⟨.mutex, .cvCompatible⟩ ;; basicMutexMembers .mutex ;; windowsCtor .mutex BOOST_SYNC_DEFINES_MUTEX_CONSTEXPR_CONSTRUCTOR)

/-- /repo/include/boost/sync/mutexes/mutex.hpp:95-105 -/
def mutexBody : P := configHpp ;; .cond (.defd BOOST_SYNC_DETAIL_PLATFORM_WINAPI) mutexWindowsHpp mutexPosixHpp
/-- `#include <boost/sync/mutexes/mutex.hpp>`, include guard /repo/include/boost/sync/mutexes/mutex.hpp:14-15 -/
def mutexHpp : P := .file .mutex mutexBody

/-- /repo/include/boost/sync/detail/mutexes/timed_mutex_posix.hpp:24-272; pthread_mutex_locks.hpp (lines 31-33) only defines lock
guards. -/
def timedMutexPosixHpp : P :=
  .decl ⟨.timedMutex, .impl .timedMutexPosix⟩ ;; configHpp ;; pthreadHpp ;;
  quiet (.when (.defd BOOST_SYNC_DETAIL_PTHREAD_HAS_TIMEDLOCK) (.define BOOST_SYNC_DEFINES_TIMED_MUTEX_NATIVE_HANDLE 1) ;;
    .when (.defd BOOST_SYNC_DETAIL_PTHREAD_HAS_TIMEDLOCK) (.decl ⟨.timedMutex, .cvCompatible⟩) ;;
    .decl ⟨.timedMutex, .member .pthreadMutex⟩ ;;
    .when (.not (.defd BOOST_SYNC_DETAIL_PTHREAD_HAS_TIMEDLOCK))
      (.decl ⟨.timedMutex, .member .pthreadCond⟩ ;; .decl ⟨.timedMutex, .member .bool⟩) ;;
    posixCtor .timedMutex (.and (.defd PTHREAD_MUTEX_INITIALIZER)
      (.or (.defd BOOST_SYNC_DETAIL_PTHREAD_HAS_TIMEDLOCK) (.defd PTHREAD_COND_INITIALIZER)))
      BOOST_SYNC_DEFINES_TIMED_MUTEX_CONSTEXPR_CONSTRUCTOR ;;
    .when (.defd BOOST_SYNC_DEFINES_TIMED_MUTEX_NATIVE_HANDLE) (.decl ⟨.timedMutex, .nativeHandle⟩))

/-- /repo/include/boost/sync/detail/mutexes/timed_mutex_windows.hpp:28-233 -/
def timedMutexWindowsHpp : P :=
  .decl ⟨.timedMutex, .impl .timedMutexWindows⟩ ;; configHpp ;;
  quiet (.decl ⟨.timedMutex, .cvCompatible⟩ ;; basicMutexMembers .timedMutex ;;
    windowsCtor .timedMutex BOOST_SYNC_DEFINES_TIMED_MUTEX_CONSTEXPR_CONSTRUCTOR)

/-- /repo/include/boost/sync/mutexes/timed_mutex.hpp:143-153 -/
def timedMutexBody : P := configHpp ;; .cond (.defd BOOST_SYNC_DETAIL_PLATFORM_WINAPI) timedMutexWindowsHpp timedMutexPosixHpp
/-- `#include <boost/sync/mutexes/timed_mutex.hpp>`, include guard /repo/include/boost/sync/mutexes/timed_mutex.hpp:14-15 -/
def timedMutexHpp : P := .file .timedMutex timedMutexBody

/-- /repo/include/boost/sync/detail/mutexes/spin_mutex.hpp:19-133 -/
def spinMutexImplHpp : P :=
  atomicHpp ;;
  quiet (.when (.and (.defd BOOST_SYNC_USE_STD_ATOMIC) (.eq (.mac ATOMIC_BOOL_LOCKFREE) (.lit 2))) (.define BOOST_SYNC_DETAIL_SPINLOCK_BOOL 1) ;;
    .when (.and (.not (.defd BOOST_SYNC_USE_STD_ATOMIC)) (.eq (.mac BOOST_ATOMIC_BOOL_LOCKFREE) (.lit 2)))
      (.define BOOST_SYNC_DETAIL_SPINLOCK_BOOL 1) ;;
    .cond (.defd BOOST_SYNC_DETAIL_SPINLOCK_BOOL)
      (.decl ⟨.spinMutex, .impl .spinBool⟩ ;; nsMember .spinMutex .atomicBool ;; .decl ⟨.spinMutex, .ctor false⟩)
      (.decl ⟨.spinMutex, .impl .spinFlag⟩ ;; nsMember .spinMutex .atomicFlag ;; .decl ⟨.spinMutex, .ctor false⟩))
/-- /repo/include/boost/sync/mutexes/spin_mutex.hpp:76-82 -/
def spinMutexBody : P := configHpp ;; spinMutexImplHpp
/-- `#include <boost/sync/mutexes/spin_mutex.hpp>`, include guard /repo/include/boost/sync/mutexes/spin_mutex.hpp:15-16 -/
def spinMutexHpp : P := .file .spinMutex spinMutexBody

/-- /repo/include/boost/sync/mutexes/shared_spin_mutex.hpp:99-105, /repo/include/boost/sync/detail/mutexes/shared_spin_mutex.hpp:24-130 -/
def sharedSpinMutexBody : P :=
  configHpp ;; atomicHpp ;; quiet (nsMember .sharedSpinMutex .atomicU32 ;; .decl ⟨.sharedSpinMutex, .ctor false⟩)
/-- `#include <boost/sync/mutexes/shared_spin_mutex.hpp>`, include guard /repo/include/boost/sync/mutexes/shared_spin_mutex.hpp:15-16 -/
def sharedSpinMutexHpp : P := .file .sharedSpinMutex sharedSpinMutexBody

/-- The data members of `basic_condition_variable`:
/repo/include/boost/sync/detail/condition_variables/basic_condition_variable_windows.hpp:134-142 -/
def basicCvMembers (f : File) : P :=
  .decl ⟨f, .member (.cls .mutex)⟩ ;; .decl ⟨f, .member .pointer⟩ ;; .decl ⟨f, .member .pointer⟩ ;; .decl ⟨f, .member (.atomicSize false)⟩

/-- /repo/include/boost/sync/detail/condition_variables/condition_variable_posix.hpp:24-253 -/
def cvPosixHpp : P :=
  .decl ⟨.cv, .impl .cvPosix⟩ ;; configHpp ;; pthreadHpp ;;
  quiet (.define BOOST_SYNC_DEFINES_CONDITION_VARIABLE_NATIVE_HANDLE 1 ;; .decl ⟨.cv, .member .pthreadCond⟩ ;;
    posixCtor .cv (.defd PTHREAD_COND_INITIALIZER) BOOST_SYNC_DEFINES_CONDITION_VARIABLE_CONSTEXPR_CONSTRUCTOR ;; .decl ⟨.cv, .nativeHandle⟩)

/-- /repo/include/boost/sync/detail/condition_variables/condition_variable_windows.hpp:23-173; basic_condition_variable_windows.hpp
includes mutex.hpp (/repo/include/boost/sync/detail/condition_variables/basic_condition_variable_windows.hpp:38). -/
def cvWindowsHpp : P :=
  .decl ⟨.cv, .impl .cvWindows⟩ ;; configHpp ;; mutexHpp ;;
  quiet (basicCvMembers .cv ;; windowsCtor .cv BOOST_SYNC_DEFINES_CONDITION_VARIABLE_CONSTEXPR_CONSTRUCTOR)

/-- /repo/include/boost/sync/condition_variables/condition_variable.hpp:272-282 -/
def cvBody : P := configHpp ;; .cond (.defd BOOST_SYNC_DETAIL_PLATFORM_WINAPI) cvWindowsHpp cvPosixHpp
/-- `#include <boost/sync/condition_variables/condition_variable.hpp>`, include guard
/repo/include/boost/sync/condition_variables/condition_variable.hpp:14-15 -/
def cvHpp : P := .file .cv cvBody

/-- /repo/include/boost/sync/detail/condition_variables/condition_variable_any_generic.hpp:22-182 -/
def cvAnyGenericHpp : P :=
  .decl ⟨.cvAny, .impl .cvAnyGeneric⟩ ;; configHpp ;; mutexHpp ;; cvHpp ;;
  quiet (.decl ⟨.cvAny, .member (.cls .mutex)⟩ ;; .decl ⟨.cvAny, .member (.cls .cv)⟩ ;;
    .cond (.and (.defd BOOST_SYNC_DEFINES_MUTEX_CONSTEXPR_CONSTRUCTOR) (.defd BOOST_SYNC_DEFINES_CONDITION_VARIABLE_CONSTEXPR_CONSTRUCTOR))
      (.define BOOST_SYNC_DEFINES_CONDITION_VARIABLE_ANY_CONSTEXPR_CONSTRUCTOR 1 ;;
        .cond (.not (.defd BOOST_NO_CXX11_CONSTEXPR)) (.decl ⟨.cvAny, .ctor true⟩) (.decl ⟨.cvAny, .ctor false⟩))
      (.decl ⟨.cvAny, .ctor false⟩))

/-- /repo/include/boost/sync/detail/condition_variables/condition_variable_any_windows.hpp:21-160 -/
def cvAnyWindowsHpp : P :=
  .decl ⟨.cvAny, .impl .cvAnyWindows⟩ ;; configHpp ;; mutexHpp ;;
  quiet (basicCvMembers .cvAny ;; windowsCtor .cvAny BOOST_SYNC_DEFINES_CONDITION_VARIABLE_ANY_CONSTEXPR_CONSTRUCTOR)

/-- /repo/include/boost/sync/condition_variables/condition_variable_any.hpp:226-236 -/
def cvAnyBody : P := configHpp ;; .cond (.defd BOOST_SYNC_DETAIL_PLATFORM_WINAPI) cvAnyWindowsHpp cvAnyGenericHpp
/-- `#include <boost/sync/condition_variables/condition_variable_any.hpp>`, include guard
/repo/include/boost/sync/condition_variables/condition_variable_any.hpp:14-15 -/
def cvAnyHpp : P := .file .cvAny cvAnyBody

/-- /repo/include/boost/sync/detail/semaphore/semaphore_windows.hpp:22-207 -/
def semaphoreWindowsHpp : P :=
  .decl ⟨.semaphore, .impl .semaphoreWindows⟩ ;; configHpp ;; quiet (.decl ⟨.semaphore, .member .handle⟩ ;; .decl ⟨.semaphore, .ctor false⟩)
/-- /repo/include/boost/sync/detail/semaphore/semaphore_dispatch.hpp:19-152 -/
def semaphoreDispatchHpp : P :=
  .decl ⟨.semaphore, .impl .semaphoreDispatch⟩ ;; configHpp ;;
  quiet (.decl ⟨.semaphore, .member .dispatchSemaphore⟩ ;; .decl ⟨.semaphore, .ctor false⟩)
/-- /repo/include/boost/sync/detail/semaphore/semaphore_posix.hpp:19-195 -/
def semaphorePosixHpp : P :=
  .decl ⟨.semaphore, .impl .semaphorePosix⟩ ;; configHpp ;; quiet (.decl ⟨.semaphore, .member .semT⟩ ;; .decl ⟨.semaphore, .ctor false⟩)
/-- /repo/include/boost/sync/detail/semaphore/semaphore_emulation.hpp:14-113 -/
def semaphoreEmulationHpp : P :=
  .decl ⟨.semaphore, .impl .semaphoreEmulation⟩ ;; configHpp ;; mutexHpp ;; cvHpp ;;
  quiet (.decl ⟨.semaphore, .member (.cls .mutex)⟩ ;; .decl ⟨.semaphore, .member (.cls .cv)⟩ ;; .decl ⟨.semaphore, .member .uint⟩ ;;
    .decl ⟨.semaphore, .ctor false⟩)

/-- /repo/include/boost/sync/semaphore.hpp:132-146 -/
def semaphoreBody : P :=
  semaphoreConfigHpp ;;
  .cond (.defd BOOST_SYNC_DETAIL_PLATFORM_WINAPI) semaphoreWindowsHpp
  (.cond (.defd BOOST_SYNC_DETAIL_USE_DISPATCH_SEMAPHORES) semaphoreDispatchHpp
  (.cond (.defd BOOST_SYNC_DETAIL_USE_POSIX_SEMAPHORES) semaphorePosixHpp semaphoreEmulationHpp))
/-- `#include <boost/sync/semaphore.hpp>`, include guard /repo/include/boost/sync/semaphore.hpp:9-10 -/
def semaphoreHpp : P := .file .semaphore semaphoreBody

/-- /repo/include/boost/sync/detail/events/auto_reset_event_windows.hpp:14-71,
/repo/include/boost/sync/detail/events/basic_event_windows.hpp:190 -/
def autoEventWindowsHpp : P :=
  .decl ⟨.autoEvent, .impl .autoEventWindows⟩ ;; configHpp ;; quiet (.decl ⟨.autoEvent, .member .handle⟩ ;; .decl ⟨.autoEvent, .ctor false⟩)
/-- /repo/include/boost/sync/detail/events/auto_reset_event_futex.hpp:19-328 -/
def autoEventFutexHpp : P :=
  .decl ⟨.autoEvent, .impl .autoEventFutex⟩ ;; configHpp ;; atomicHpp ;; futexHpp ;;
  quiet (nsMember .autoEvent .atomicUint ;; .decl ⟨.autoEvent, .ctor false⟩)
/-- /repo/include/boost/sync/detail/events/auto_reset_event_semaphore.hpp:16-120 -/
def autoEventSemaphoreHpp : P :=
  .decl ⟨.autoEvent, .impl .autoEventSemaphore⟩ ;; configHpp ;; atomicHpp ;; semaphoreHpp ;;
  quiet (.decl ⟨.autoEvent, .member (.cls .semaphore)⟩ ;; nsMember .autoEvent .atomicI32 ;; .decl ⟨.autoEvent, .ctor false⟩)
/-- /repo/include/boost/sync/detail/events/auto_reset_event_emulation.hpp:14-117 -/
def autoEventEmulationHpp : P :=
  .decl ⟨.autoEvent, .impl .autoEventEmulation⟩ ;; configHpp ;; mutexHpp ;; cvHpp ;;
  quiet (.decl ⟨.autoEvent, .member (.cls .mutex)⟩ ;; .decl ⟨.autoEvent, .member (.cls .cv)⟩ ;; .decl ⟨.autoEvent, .member .bool⟩ ;;
    .decl ⟨.autoEvent, .ctor false⟩)

/-- /repo/include/boost/sync/events/auto_reset_event.hpp:134-152 -/
def autoEventBody : P :=
  configHpp ;;
  .cond (.defd BOOST_SYNC_DETAIL_PLATFORM_WINAPI) autoEventWindowsHpp
  (.cond (.defd BOOST_SYNC_DETAIL_PLATFORM_LINUX) autoEventFutexHpp
  (semaphoreConfigHpp ;;
    .cond (.or (.defd BOOST_SYNC_DETAIL_USE_POSIX_SEMAPHORES) (.defd BOOST_SYNC_DETAIL_USE_DISPATCH_SEMAPHORES))
      autoEventSemaphoreHpp autoEventEmulationHpp))
/-- `#include <boost/sync/events/auto_reset_event.hpp>`, include guard /repo/include/boost/sync/events/auto_reset_event.hpp:14-15 -/
def autoEventHpp : P := .file .autoEvent autoEventBody

/-- /repo/include/boost/sync/detail/events/manual_reset_event_windows.hpp:14-72,
/repo/include/boost/sync/detail/events/basic_event_windows.hpp:190 -/
def manualEventWindowsHpp : P :=
  .decl ⟨.manualEvent, .impl .manualEventWindows⟩ ;; configHpp ;;
  quiet (.decl ⟨.manualEvent, .member .handle⟩ ;; .decl ⟨.manualEvent, .ctor false⟩)
/-- /repo/include/boost/sync/detail/events/manual_reset_event_futex.hpp:21-215 -/
def manualEventFutexHpp : P :=
  .decl ⟨.manualEvent, .impl .manualEventFutex⟩ ;; configHpp ;; futexHpp ;;
  quiet (.decl ⟨.manualEvent, .member (.atomicUint false)⟩ ;; .decl ⟨.manualEvent, .ctor false⟩)
/-- /repo/include/boost/sync/detail/events/manual_reset_event_emulation.hpp:14-117 -/
def manualEventEmulationHpp : P :=
  .decl ⟨.manualEvent, .impl .manualEventEmulation⟩ ;; configHpp ;; mutexHpp ;; cvHpp ;;
  quiet (.decl ⟨.manualEvent, .member (.cls .mutex)⟩ ;; .decl ⟨.manualEvent, .member (.cls .cv)⟩ ;; .decl ⟨.manualEvent, .member .bool⟩ ;;
    .decl ⟨.manualEvent, .ctor false⟩)

/-- /repo/include/boost/sync/events/manual_reset_event.hpp:141-153 -/
def manualEventBody : P :=
  configHpp ;;
  .cond (.defd BOOST_SYNC_DETAIL_PLATFORM_WINAPI) manualEventWindowsHpp
  (.cond (.defd BOOST_SYNC_DETAIL_PLATFORM_LINUX) manualEventFutexHpp manualEventEmulationHpp)
/-- `#include <boost/sync/events/manual_reset_event.hpp>`, include guard
/repo/include/boost/sync/events/manual_reset_event.hpp:14-15 -/
def manualEventHpp : P := .file .manualEvent manualEventBody

/-- The text of each header: the files cited above. -/
def text : File → P
  | .config => configBody
  | .atomic => atomicBody
  | .semaphoreConfig => semaphoreConfigBody
  | .pthread => pthreadBody
  | .futex => futexBody
  | .linkConfig => linkConfigBody
  | .mutex => mutexBody
  | .timedMutex => timedMutexBody
  | .spinMutex => spinMutexBody
  | .sharedSpinMutex => sharedSpinMutexBody
  | .cv => cvBody
  | .cvAny => cvAnyBody
  | .semaphore => semaphoreBody
  | .autoEvent => autoEventBody
  | .manualEvent => manualEventBody
  | .source => .skip

/-- /repo/src/tss_pthread.cpp:16-42; tss.hpp includes link_config.hpp (/repo/include/boost/sync/detail/tss.hpp:19), tss_manager.hpp
the mutex and the condition variable (/repo/src/tss_manager.hpp:27-28). -/
def tssPthreadCpp : P :=
  configHpp ;;
  .when (.not (.defd BOOST_SYNC_DETAIL_PLATFORM_WINAPI))
    (linkConfigHpp ;; mutexHpp ;; cvHpp ;;
      quiet (.decl ⟨.source, .tssPthread⟩ ;;
        .cond (.defd BOOST_SYNC_DETAIL_TLS) (.decl ⟨.source, .tssVariable⟩) (.decl ⟨.source, .tssSlot⟩)))

/-- /repo/src/tss_windows.cpp:16-48 -/
def tssWindowsCpp : P :=
  configHpp ;;
  .when (.defd BOOST_SYNC_DETAIL_PLATFORM_WINAPI)
    (linkConfigHpp ;; mutexHpp ;; cvHpp ;;
      quiet (.decl ⟨.source, .tssWindows⟩ ;;
        .cond (.defd BOOST_SYNC_DETAIL_TLS) (.decl ⟨.source, .tssVariable⟩) (.decl ⟨.source, .tssSlot⟩)))

/-- /repo/src/tss_windows_dll.cpp:6-88 -/
def tssWindowsDllCpp : P :=
  configHpp ;;
  .when (.and (.defd BOOST_SYNC_DETAIL_PLATFORM_WINAPI) (.defd BOOST_SYNC_DYN_LINK)) (.decl ⟨.source, .tssHookDll⟩)

/-- /repo/src/tss_windows_pe.cpp:9-348 -/
def tssWindowsPeCpp : P :=
  configHpp ;;
  .when (.and (.defd BOOST_SYNC_DETAIL_PLATFORM_WINAPI) (.defd BOOST_SYNC_STATIC_LINK))
    (.cond (.or (.and (.defd MINGW32) (.not (.defd WIN64))) (.or (.defd MINGW64) (.nonzero (.mac MINGW64_VERSION_MAJOR))))
      (.decl ⟨.source, .tssHookPe⟩)
    (.when (.and (.defd MSC_VER) (.not (.defd UNDER_CE))) (.decl ⟨.source, .tssHookPe⟩)))

/-- The sources of a build with target system Windows, the sources of another build.
/repo/build/Jamfile.v2:178-193 -/
def sources (windows : Bool) : List P :=
  if windows then [tssWindowsDllCpp, tssWindowsPeCpp, tssWindowsCpp, tssPthreadCpp] else [tssPthreadCpp]

/-- What a build of the library declares; each source file is a translation unit.
/repo/build/Jamfile.v2:178-193 -/
def built (windows : Bool) (E : Env Macro) : List What :=
  (sources windows).flatMap fun p => (((Prog.file .source p).run (start E [])).decls.filter (fun d => d.by_ = .source)).map (·.what)

/-- A translation unit that includes the headers `fs` in this order, under the macros `E`. -/
def unit (E : Env Macro) (fs : List File) (saved : List Bool := []) : St Macro File Decl := (includes text fs).run (start E saved)

end Verif.Config
