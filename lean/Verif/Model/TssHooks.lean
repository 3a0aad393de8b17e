import Verif.Model.TssProcess

/-!
# How the hooks of thread-specific storage are called (Windows)

Source: src/tss_windows_dll.cpp 22-53; src/tss_windows_pe.cpp 41-85, 155-193, 245-310; src/tss_windows_hooks.hpp 33-59.

The library is told of threads and of the process by the loader and by the runtime of the compiler; what it is told, and in which order, is not code of the
library and is an assumption here (`notes`).

Simplifications.  The section names are not modelled, only the functions that are put in them.  `_pRawDllMainOrig` (298-301) and the merging of pointers for old compilers
(on_tls_prepare, 205-240) are not modelled.  `atexit` may fail (its result is not looked at, 256).
-/

namespace Verif.TssHooks

/-- The hooks, tss_windows_hooks.hpp 33-59. -/
inductive Hook
  | processEnter | processExit | threadEnter | threadExit
  deriving DecidableEq, Repr

/-- How the library is built: as a DLL (tss_windows_dll.cpp 10); statically with MinGW, a recent version (tss_windows_pe.cpp 55-60) or an old one (61-85);
statically with MSVC (88, 155-304). -/
inductive Build
  | dll | mingw | mingwOld | msvc
  deriving DecidableEq, Repr

/-- What the module with the library is: a program or a DLL.  (Told apart by the comments at tss_windows_hooks.hpp 34, 41.) -/
inductive Kind
  | exe | dll
  deriving DecidableEq, Repr

/-- The second argument of `DllMain` and of the callbacks: tss_windows_dll.cpp 32-51, tss_windows_pe.cpp 43-50, 273-278, 287-295. -/
inductive Reason
  | processAttach | threadAttach | threadDetach | processDetach
  deriving DecidableEq, Repr

/-- The ways in which the library is told: `DllMain` (tss_windows_dll.cpp 29); `_pRawDllMain` (tss_windows_pe.cpp 310); the TLS callbacks (59, 160, 187); the
constructors of global objects have been called (64, 162, 181); their destructors are going to be called (65, 256); they have been called (66, 163, 192). -/
inductive Note
  | dllMain (r : Reason) | raw (r : Reason) | tls (r : Reason) | ctors | exiting | term
  deriving DecidableEq, Repr

/-- `DllMain`, tss_windows_dll.cpp 30-51. -/
def dllMain : Reason → List Hook
  | .processAttach => [.processEnter, .threadEnter]
  | .threadAttach => [.threadEnter]
  | .threadDetach => [.threadExit]
  | .processDetach => [.threadExit, .processExit]

/-- `on_tls_callback`, tss_windows_pe.cpp 41-51 and 271-279. -/
def onTls : Reason → List Hook
  | .threadDetach => [.threadExit]
  | _ => []

/-- `dll_callback`, tss_windows_pe.cpp 286-295. -/
def dllCallback : Reason → List Hook
  | .threadDetach => [.threadExit]
  | .processDetach => [.processExit]
  | _ => []

/-- The hooks called: for the DLL tss_windows_dll.cpp 30-51; for MinGW tss_windows_pe.cpp 59 and, old versions, 64-66 (the list of TLS callbacks, 73-74, 81, is empty);
for MSVC 160-163, 245-304, 310.  `reg` says whether `on_thread_exit` has been registered with `atexit` (256). -/
def hooks (b : Build) (reg : Bool) : Note → List Hook
  | .dllMain r => match b with
    | .dll => dllMain r
    | _ => []
  | .raw r => match b with
    | .msvc => dllCallback r
    | _ => []
  | .tls r => match b with
    | .mingw | .msvc => onTls r
    | _ => []
  | .ctors => match b with
    | .mingwOld | .msvc => [.processEnter]
    | _ => []
  | .exiting => match b with
    | .mingwOld => [.threadExit]
    | .msvc => if reg then [.threadExit] else []
    | _ => []
  | .term => match b with
    | .mingwOld | .msvc => [.processExit]
    | _ => []

/-- Whether `on_thread_exit` has been registered afterwards: `on_process_init`, tss_windows_pe.cpp 256; `ok` is the success of `atexit`. -/
def registers (b : Build) (ok reg : Bool) : Note → Bool
  | .ctors => match b with
    | .msvc => ok
    | _ => reg
  | _ => reg

/-- What happens: thread `t` starts the process or loads the DLL; a thread starts; a thread ends; thread `t` ends the process or unloads the DLL
(tss_windows_hooks.hpp 34, 41, 48, 55). -/
inductive Happening
  | start (t : Nat) | threadStart (t : Nat) | threadEnd (t : Nat) | finish (t : Nat)
  deriving DecidableEq, Repr

/-- The thread in which it happens, in whose context the hooks are called (tss_windows_hooks.hpp 49, 56). -/
def Happening.thread : Happening → Nat
  | .start t | .threadStart t | .threadEnd t | .finish t => t

/-- What the module is told, and in which order: an assumption about the loader and the runtime; see the comments at tss_windows_pe.cpp 168-187, 247-254. -/
def notes : Kind → Happening → List Note
  | .exe, .start _ => [.tls .processAttach, .ctors]
  | .exe, .threadStart _ => [.tls .threadAttach]
  | .exe, .threadEnd _ => [.tls .threadDetach]
  | .exe, .finish _ => [.exiting, .term, .tls .processDetach]
  | .dll, .start _ => [.tls .processAttach, .raw .processAttach, .ctors, .dllMain .processAttach]
  | .dll, .threadStart _ => [.tls .threadAttach, .raw .threadAttach, .dllMain .threadAttach]
  | .dll, .threadEnd _ => [.tls .threadDetach, .dllMain .threadDetach, .raw .threadDetach]
  | .dll, .finish _ => [.tls .processDetach, .dllMain .processDetach, .exiting, .term, .raw .processDetach]

/-- The hooks called for a list of notifications, and whether `on_thread_exit` is registered afterwards: tss_windows_pe.cpp 245-304, tss_windows_dll.cpp 30-51. -/
def told (b : Build) (ok : Bool) : Bool → List Note → List Hook × Bool
  | reg, [] => ([], reg)
  | reg, n :: ns => (hooks b reg n ++ (told b ok (registers b ok reg n) ns).1, (told b ok (registers b ok reg n) ns).2)

/-- Everything that happens, with the hooks that are called then: tss_windows_pe.cpp 245-304, tss_windows_dll.cpp 30-51. -/
def log (b : Build) (k : Kind) (ok : Bool) : Bool → List Happening → List (Happening × List Hook)
  | _, [] => []
  | reg, h :: hs => (h, (told b ok reg (notes k h)).1) :: log b k ok (told b ok reg (notes k h)).2 hs

/-- The process from its start by thread 0 to its end by thread `u` (tss_windows_pe.cpp 245-269, tss_windows_dll.cpp 34, 49). -/
def history (hs : List Happening) (u : Nat) : List Happening := .start 0 :: hs ++ [.finish u]

end Verif.TssHooks
