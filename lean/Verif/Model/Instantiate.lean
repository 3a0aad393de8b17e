/-!
# Which calls of the timed functions compile

Models the declarations of all functions with a timeout, which types they accept and which calls their bodies contain: detail/time_traits.hpp
33-60, the specialisations of `time_traits` in support/std_chrono.hpp, boost_chrono.hpp, boost_date_time.hpp and posix_time.hpp, and the timed functions
of all mutexes, events, semaphores, condition variables and of `unique_lock`.  These are templates: a body is compiled for a type when the
function is called with it, and an error in the body then is an error of the program.

Simplifications: of a type `duration< Rep, Period >` only the period and whether `Rep` is a floating point type matter; the rest of the bodies (which does not depend on
the type of the timeout) is assumed to compile; the mutex of a condition variable is a compatible one; `BOOST_SYNC_DETAIL_STD_CHRONO_TIME_T_MISMATCH`
(std_chrono.hpp 75) is not defined, as nothing in the library defines it.  `condition_variable` inside other classes is the one for POSIX, where these
classes are used.
-/

namespace Verif.Instantiate

/-- `duration< Rep, ratio< num, den > >` of either chrono library (std_chrono.hpp 33-34, boost_chrono.hpp 35-36); `float`: `Rep` is a floating point type. -/
structure Dur where
  float : Bool
  num : Nat
  den : Nat
  deriving DecidableEq, Repr

/-- Which chrono library a type is from (support/std_chrono.hpp, support/boost_chrono.hpp 27-29). -/
inductive Lib
  | std | boost
  deriving DecidableEq, Repr

/-- Types of users: chrono durations (std_chrono.hpp 33-46); time points with duration `d` of a clock whose `now()` gives a time point with duration `native`, the clock being
`system_clock` or not (std_chrono.hpp 48-81); durations and time points of Boost.DateTime (boost_date_time.hpp 34-75); `timespec` (posix_time.hpp 33-52); any other type. -/
inductive Time
  | duration (l : Lib) (d : Dur)
  | point (l : Lib) (system : Bool) (native d : Dur)
  | dateTimeDuration
  | dateTimePoint
  | timespec
  | other
  deriving DecidableEq, Repr

/-- Which support headers are included (support/std_chrono.hpp, boost_chrono.hpp, boost_date_time.hpp, posix_time.hpp). -/
structure Headers where
  stdChrono : Bool
  boostChrono : Bool
  dateTime : Bool
  posixTime : Bool
  deriving DecidableEq, Repr

/-- The tags: time_traits.hpp 33-34. -/
inductive Tag
  | duration | point
  deriving DecidableEq, Repr

/-- Types of arguments: a type of the user, `system_duration`, `system_time_point`, `chrono_time_point< time_point< Clock, d > >` (detail/time_units.hpp 35-295). -/
inductive Ty
  | user (t : Time)
  | sysDuration
  | sysPoint
  | chronoPoint (l : Lib) (native d : Dur)
  deriving DecidableEq, Repr

/-- Is the header for the chrono library included (support/std_chrono.hpp 13-28, boost_chrono.hpp 13-28)? -/
def Headers.chrono (h : Headers) : Lib → Bool
  | .std => h.stdChrono
  | .boost => h.boostChrono

/-- `time_traits< T >`: its tag and unit type if it is specialised: time_traits.hpp 36-40 (not specialised), std_chrono.hpp 33-70, boost_chrono.hpp 33-72,
boost_date_time.hpp 34-65, posix_time.hpp 33-41.  There are none for the types of the library. -/
def traits (h : Headers) : Ty → Option (Tag × Ty)
  | .user (.duration l _) => if h.chrono l then some (.duration, .sysDuration) else none
  | .user (.point l system native d) =>
    if h.chrono l then some (.point, if system then .sysPoint else .chronoPoint l native d) else none
  | .user .dateTimeDuration => if h.dateTime then some (.duration, .sysDuration) else none
  | .user .dateTimePoint => if h.dateTime then some (.point, .sysPoint) else none
  | .user .timespec => if h.posixTime then some (.point, .sysPoint) else none
  | _ => none

/-- Is there an implicit conversion between chrono durations (needed in semaphore_posix.hpp 175, `time_point now = clock::now()`, between time points)?  The rule of
[time.duration.cons]: the target is floating, or the source is not and its period divided by that of the target is a whole number. -/
def convertible (src dst : Dur) : Bool :=
  dst.float || (!src.float && decide (src.den * dst.num ∣ src.num * dst.den))

/-- The classes. -/
inductive Cls
  /-- mutexes/timed_mutex_posix.hpp 177-262 -/
  | timedMutexPosix
  /-- mutexes/timed_mutex_windows.hpp 80-224 -/
  | timedMutexWindows
  /-- `unique_lock< timed_mutex >`: locks/unique_lock.hpp 91-96, 211-251 -/
  | uniqueLock (windows : Bool)
  /-- events/manual_reset_event_futex.hpp 89-202 -/
  | manualFutex
  /-- events/auto_reset_event_futex.hpp 146-292 -/
  | autoFutex
  /-- events/basic_event_windows.hpp 108-186 -/
  | basicEventWindows
  /-- events/manual_reset_event_windows.hpp 44-60 -/
  | manualWindows
  /-- events/auto_reset_event_windows.hpp 43-59 -/
  | autoWindows
  /-- events/manual_reset_event_emulation.hpp 75-103 -/
  | manualEmulation
  /-- events/auto_reset_event_emulation.hpp 74-103 -/
  | autoEmulation
  /-- events/auto_reset_event_semaphore.hpp 84-107 on semaphores of POSIX -/
  | autoSemPosix
  /-- events/auto_reset_event_semaphore.hpp 84-107 on semaphores of libdispatch -/
  | autoSemDispatch
  /-- events/auto_reset_event_semaphore.hpp 84-107 on semaphores of Mach -/
  | autoSemMach
  /-- semaphore/semaphore_posix.hpp 120-184 -/
  | semPosix
  /-- semaphore/semaphore_windows.hpp 96-195 -/
  | semWindows
  /-- semaphore/semaphore_dispatch.hpp 76-141 -/
  | semDispatch
  /-- semaphore/basic_semaphore_mach.hpp 102-149 -/
  | basicSemMach
  /-- semaphore/semaphore_mach.hpp 43-59 -/
  | semMach
  /-- semaphore/semaphore_emulation.hpp 70-99 -/
  | semEmulation
  /-- condition_variables/condition_variable_posix.hpp 115-245 -/
  | cvPosix
  /-- condition_variables/basic_condition_variable_windows.hpp 207-254 -/
  | basicCvWindows
  /-- condition_variables/condition_variable_windows.hpp 81-163 -/
  | cvWindows
  /-- condition_variables/condition_variable_any_generic.hpp 106-171 -/
  | cvAnyGeneric
  /-- condition_variables/condition_variable_any_windows.hpp 75-150 -/
  | cvAnyWindows
  deriving DecidableEq, Repr

/-- The functions: `timed_wait`/`timed_lock`, `wait_for`/`try_lock_for`, `wait_until`/`try_lock_until`, the three with a predicate (condition_variable_posix.hpp 123-195), the constructor of
`unique_lock` with a time (unique_lock.hpp 91-96), and `priv_timed_wait`/`priv_timed_lock` (semaphore_posix.hpp 139-184, timed_mutex_posix.hpp 204-262). -/
inductive Fn
  | timed | for_ | until_ | timedPred | forPred | untilPred | construct | priv
  deriving DecidableEq, Repr

/-- What a declaration accepts as timeout: any type with a specialised `time_traits` (semaphore_posix.hpp 120-121), any type with the tag (126-127, 132-133), a `system_duration` (139), a
`system_time_point` (144), any `chrono_time_point` (169-170). -/
inductive Param
  | specialised
  | tagged (t : Tag)
  | sysDuration
  | sysPoint
  | chronoPoint
  deriving DecidableEq, Repr

/-- What a body does with the timeout. -/
inductive Use
  /-- passes it on: `m_cond.timed_wait(lock, timeout)`, semaphore_emulation.hpp 76 -/
  | same (c : Cls) (f : Fn)
  /-- passes on `time_traits< Time >::to_sync_unit(t)`: semaphore_posix.hpp 123 -/
  | converted (c : Cls) (f : Fn)
  /-- passes on `system_time_point::now() + time_traits< Duration >::to_sync_unit(t)`: condition_variable_posix.hpp 143-146 -/
  | nowPlusConverted (c : Cls) (f : Fn)
  /-- passes on `system_time_point::now() + dur`: semaphore_posix.hpp 141 -/
  | nowPlus (c : Cls) (f : Fn)
  /-- passes on `t - system_time_point::now()`: basic_semaphore_mach.hpp 131 -/
  | minusNow (c : Cls) (f : Fn)
  /-- `time_point now = clock::now();`, `now = clock::now();`, passing on `time_traits< duration >::to_sync_unit(t.get() - now)`: semaphore_posix.hpp 172-180 -/
  | polls (c : Cls) (f : Fn)
  deriving DecidableEq, Repr

/-- A declaration with its body (semaphore_posix.hpp 120-124). -/
structure Decl where
  param : Param
  body : List Use
  deriving DecidableEq, Repr

/-- Three public functions that convert the timeout and call the same function of class `c` (semaphore_posix.hpp 120-136). -/
def converting (c : Cls) (g : Fn) : Fn → List Decl
  | .timed => [⟨.specialised, [.converted c g]⟩]
  | .for_ => [⟨.tagged .duration, [.converted c g]⟩]
  | .until_ => [⟨.tagged .point, [.converted c g]⟩]
  | _ => []

/-- Three public functions of `self` of which `timed_wait` passes the timeout on to `timed_wait` of `c` (semaphore_emulation.hpp 70-99). -/
def delegating (self c : Cls) : Fn → List Decl
  | .timed => [⟨.specialised, [.same c .timed]⟩]
  | .for_ => [⟨.tagged .duration, [.same self .timed]⟩]
  | .until_ => [⟨.tagged .point, [.same self .timed]⟩]
  | _ => []

/-- The public functions of a condition variable that call function `g` of `c`: condition_variable_posix.hpp 115-195, condition_variable_windows.hpp 81-163,
condition_variable_any_windows.hpp 75-150. -/
def waiting (c : Cls) (g : Fn) : Fn → List Decl
  | .timed => [⟨.specialised, [.converted c g]⟩]
  | .timedPred => [⟨.tagged .point, [.converted c g]⟩, ⟨.tagged .duration, [.nowPlusConverted c g]⟩]
  | .until_ => [⟨.tagged .point, [.converted c g]⟩]
  | .untilPred => [⟨.tagged .point, [.converted c g]⟩]
  | .for_ => [⟨.tagged .duration, [.converted c g]⟩]
  | .forPred => [⟨.tagged .duration, [.nowPlusConverted c g]⟩]
  | _ => []

/-- Three overloads for the types of the library; `dur` and `pnt` are what the bodies of the first two contain (semaphore_posix.hpp 139-184: the one for durations calls that for
time points). -/
def overloads (self : Cls) (f : Fn) (dur pnt : List Use) : List Decl :=
  [⟨.sysDuration, dur⟩, ⟨.sysPoint, pnt⟩, ⟨.chronoPoint, [.polls self f]⟩]

/-- All declarations of a function in a class. -/
def decls : Cls → Fn → List Decl
  -- timed_mutex_posix.hpp 176-192, 205-208, 210, 245-262
  | .timedMutexPosix, .priv => overloads .timedMutexPosix .priv [.nowPlus .timedMutexPosix .priv] []
  | .timedMutexPosix, f => converting .timedMutexPosix .priv f
  -- timed_mutex_windows.hpp 80-105, 111, 163, 210-224
  | .timedMutexWindows, .priv => overloads .timedMutexWindows .priv [] []
  | .timedMutexWindows, f => converting .timedMutexWindows .priv f
  -- unique_lock.hpp 91-96, 211-251
  | .uniqueLock w, .timed => [⟨.specialised, [.same (if w then .timedMutexWindows else .timedMutexPosix) .timed]⟩]
  | .uniqueLock w, .for_ => [⟨.tagged .duration, [.same (if w then .timedMutexWindows else .timedMutexPosix) .for_]⟩]
  | .uniqueLock w, .until_ => [⟨.tagged .point, [.same (if w then .timedMutexWindows else .timedMutexPosix) .until_]⟩]
  | .uniqueLock w, .construct => [⟨.specialised, [.same (.uniqueLock w) .timed]⟩]
  | .uniqueLock _, _ => []
  -- manual_reset_event_futex.hpp 89-105, 108, 146, 187-202; line 196 calls `timed_wait`, not `priv_timed_wait`
  | .manualFutex, .priv => [⟨.sysPoint, []⟩, ⟨.sysDuration, []⟩, ⟨.chronoPoint, [.polls .manualFutex .timed]⟩]
  | .manualFutex, f => converting .manualFutex .priv f
  -- auto_reset_event_futex.hpp 146-162, 165, 220, 276-292
  | .autoFutex, .priv => overloads .autoFutex .priv [] []
  | .autoFutex, f => converting .autoFutex .priv f
  -- basic_event_windows.hpp 108, 140, 171-186
  | .basicEventWindows, .timed => overloads .basicEventWindows .timed [] []
  | .basicEventWindows, _ => []
  -- manual_reset_event_windows.hpp 44-60
  | .manualWindows, f => converting .basicEventWindows .timed f
  -- auto_reset_event_windows.hpp 43-59
  | .autoWindows, f => converting .basicEventWindows .timed f
  -- manual_reset_event_emulation.hpp 75-103
  | .manualEmulation, f => delegating .manualEmulation .cvPosix f
  -- auto_reset_event_emulation.hpp 74-103
  | .autoEmulation, f => delegating .autoEmulation .cvPosix f
  -- auto_reset_event_semaphore.hpp 84-107
  | .autoSemPosix, f => delegating .autoSemPosix .semPosix f
  | .autoSemDispatch, f => delegating .autoSemDispatch .semDispatch f
  | .autoSemMach, f => delegating .autoSemMach .semMach f
  -- semaphore_posix.hpp 120-136, 139-142, 144, 169-184
  | .semPosix, .priv => overloads .semPosix .priv [.nowPlus .semPosix .priv] []
  | .semPosix, f => converting .semPosix .priv f
  -- semaphore_windows.hpp 96-112, 115, 147, 179-195
  | .semWindows, .priv => overloads .semWindows .priv [] []
  | .semWindows, f => converting .semWindows .priv f
  -- semaphore_dispatch.hpp 76-92, 95, 119, 126-141
  | .semDispatch, .priv => overloads .semDispatch .priv [] []
  | .semDispatch, f => converting .semDispatch .priv f
  -- basic_semaphore_mach.hpp 102-149
  | .basicSemMach, .timed => overloads .basicSemMach .timed [] [.minusNow .basicSemMach .timed]
  | .basicSemMach, _ => []
  -- semaphore_mach.hpp 43-59
  | .semMach, f => converting .basicSemMach .timed f
  -- semaphore_emulation.hpp 70-99
  | .semEmulation, f => delegating .semEmulation .cvPosix f
  -- condition_variable_posix.hpp 115-195, 213-245
  | .cvPosix, .priv => overloads .cvPosix .priv [.nowPlus .cvPosix .priv] []
  | .cvPosix, f => waiting .cvPosix .priv f
  -- basic_condition_variable_windows.hpp 207-254
  | .basicCvWindows, .timed => overloads .basicCvWindows .timed [] []
  | .basicCvWindows, _ => []
  -- condition_variable_windows.hpp 81-163
  | .cvWindows, f => waiting .basicCvWindows .timed f
  -- condition_variable_any_generic.hpp 106-171
  | .cvAnyGeneric, .timed => [⟨.specialised, [.same .cvPosix .timed]⟩]
  | .cvAnyGeneric, .timedPred => [⟨.specialised, [.same .cvAnyGeneric .timed]⟩]
  | .cvAnyGeneric, .until_ => [⟨.tagged .point, [.same .cvPosix .until_]⟩]
  | .cvAnyGeneric, .untilPred => [⟨.tagged .point, [.same .cvAnyGeneric .until_]⟩]
  | .cvAnyGeneric, .for_ => [⟨.tagged .duration, [.same .cvPosix .for_]⟩]
  | .cvAnyGeneric, .forPred => [⟨.tagged .duration, [.same .cvAnyGeneric .for_]⟩]
  | .cvAnyGeneric, _ => []
  -- condition_variable_any_windows.hpp 75-150
  | .cvAnyWindows, f => waiting .basicCvWindows .timed f

/-- Does the declaration accept an argument of the type: the conditions `enable_if_c` (semaphore_posix.hpp 121), `enable_if_tag`, `is_time_tag_of` (time_traits.hpp 42-57).  All constructors of `system_duration` and
`system_time_point` from other types are explicit (time_units.hpp 57, 100-112, 165-177), so there are no conversions. -/
def accepts (h : Headers) (t : Ty) : Param → Bool
  | .specialised => (traits h t).isSome
  | .tagged g => decide ((traits h t).map (·.1) = some g)
  | .sysDuration => decide (t = .sysDuration)
  | .sysPoint => decide (t = .sysPoint)
  | .chronoPoint => match t with
    | .chronoPoint .. => true
    | _ => false

/-- The declaration a call chooses: the only one that accepts the argument (overloads as in semaphore_posix.hpp 139, 144, 170). -/
def resolve (h : Headers) (c : Cls) (f : Fn) (t : Ty) : Option Decl :=
  match (decls c f).filter (fun d => accepts h t d.param) with
  | [d] => some d
  | _ => none

/-- The call a use makes (lines as in `Use`: semaphore_posix.hpp 123, 141, 172-180); `none`: the expression does not compile. -/
def call (h : Headers) (t : Ty) : Use → Option (Cls × Fn × Ty)
  | .same c f => some (c, f, t)
  | .converted c f => (traits h t).map fun u => (c, f, u.2)
  | .nowPlusConverted c f => match traits h t with
    | some (_, .sysDuration) => some (c, f, .sysPoint)
    | _ => none
  | .nowPlus c f => match t with
    | .sysDuration => some (c, f, .sysPoint)
    | _ => none
  | .minusNow c f => match t with
    | .sysPoint => some (c, f, .sysDuration)
    | _ => none
  | .polls c f => match t with
    | .chronoPoint l native d =>
      if convertible native d then (traits h (.user (.duration l d))).map fun u => (c, f, u.2) else none
    | _ => none

/-- The call compiles: a declaration is chosen and, compiled for this type, its body compiles (semaphore_posix.hpp 120-184). -/
inductive Compiles (h : Headers) : Cls → Fn → Ty → Prop
  | intro {c f t} (d : Decl) (calls : List (Cls × Fn × Ty)) (hd : resolve h c f t = some d)
      (hc : d.body.mapM (call h t) = some calls) (hb : ∀ q ∈ calls, Compiles h q.1 q.2.1 q.2.2) : Compiles h c f t

end Verif.Instantiate
