import Verif.Model.Locks

/-!
# The exceptions of the library: how they are constructed and which error code they carry

Models exceptions/runtime_exception.hpp 30-57, lock_error.hpp 31-50, wait_error.hpp 31-50, overflow_error.hpp 31-50, resource_error.hpp
31-60, detail/system_error.hpp 37-43, detail/throw_exception.hpp 35-73 and all 87 uses of `BOOST_SYNC_DETAIL_THROW` with an error code
(the 88th, waitable_timer.hpp 315, throws a `std::logic_error`, which has none).  The first argument of an exception is an `int` (a result of
pthread functions, `errno`), a `DWORD` (`GetLastError()`), or a constant of `errc`; the second a string literal.  Which constructor is called, if
any, is decided as in C++: by the implicit conversions of the arguments to the types of the parameters and their ranks.

Simplifications: the text of the exception, its source location and the wrapping by `boost::throw_exception` are not modelled.  The values of the
constants of `errc` and the error conditions a category assigns to values are those of the C library and the system: parameters.
-/

namespace Verif.ErrCode

/-- `system_ns` (detail/system_error.hpp 37-43): the namespace `std` if `BOOST_SYNC_USE_STD_SYSTEM_ERROR` is defined, else `boost::system`. -/
inductive Ns
  | boost | std
  deriving DecidableEq, Repr

/-- The classes: exceptions/runtime_exception.hpp 30, lock_error.hpp 31, wait_error.hpp 31, overflow_error.hpp 31, resource_error.hpp 31. -/
inductive Cls
  | runtimeException | lockError | waitError | overflowError | resourceError
  deriving DecidableEq, Repr

/-- The constants of `errc` used: unique_lock.hpp 189, 192, basic_semaphore_mach.hpp 51, 79, 89. -/
inductive Errc
  | operation_not_permitted | resource_deadlock_would_occur | not_enough_memory | invalid_argument | operation_canceled
  deriving DecidableEq, Repr

/-- What the C library says: the values of the constants of `errc` (`system_ns::errc`, detail/system_error.hpp 38-42). -/
structure Platform where
  errno : Errc → Int32

/-- Types of arguments: `int` (mutex_posix.hpp 89), `DWORD` (basic_event_windows.hpp 53), `errc_t` (detail/system_error.hpp 39, 42), a string literal
(mutex_posix.hpp 92), and what constructors pass on to the base class: `const char*`, `std::string` (lock_error.hpp 39-45). -/
inductive Ty
  | int | dword | errc | literal | charPtr | string
  deriving DecidableEq, Repr

/-- Types of parameters: `int`, `errc_t`, `const char*`, `std::string const&` and `ArgString const&` of a template (resource_error.hpp 39-55). -/
inductive Param
  | int | errc | charPtr | string | any
  deriving DecidableEq, Repr

/-- The rank of the implicit conversion of an argument: 0 none needed, 1 promotion, 2 conversion, 3 constructor of `std::string`; `none` if there is no
implicit conversion.  `boost::system::errc::errc_t` is an unscoped enumeration, `std::errc` a scoped one (detail/system_error.hpp 37-43), which
converts to nothing. -/
def rank (ns : Ns) : Ty → Param → Option Nat
  | _, .any => some 0
  | .int, .int => some 0
  | .dword, .int => some 2
  | .errc, .int => match ns with
    | .boost => some 1
    | .std => none
  | .errc, .errc => some 0
  | .literal, .charPtr => some 0
  | .literal, .string => some 3
  | .charPtr, .charPtr => some 0
  | .charPtr, .string => some 3
  | .string, .string => some 0
  | _, _ => none

/-- A constructor: its parameters, how many of them have default arguments, whether it is a template (resource_error.hpp 35-55). -/
structure Ctor where
  params : List Param
  defaults : Nat
  template : Bool
  deriving DecidableEq, Repr

/-- The constructors.  runtime_exception.hpp 34, 38, 43; lock_error.hpp, wait_error.hpp and overflow_error.hpp 35, 39, 43; resource_error.hpp 35,
39, 43, 47-48, 52-53. -/
def ctors : Cls → List Ctor
  | .resourceError =>
    [⟨[], 0, false⟩, ⟨[.int], 0, false⟩, ⟨[.errc], 0, false⟩, ⟨[.int, .any], 0, true⟩, ⟨[.errc, .any], 0, true⟩]
  | _ => [⟨[.int], 1, false⟩, ⟨[.int, .charPtr], 0, false⟩, ⟨[.int, .string], 0, false⟩]

/-- The ranks of the conversions of the arguments; `none` if the constructor cannot be called with them (`Exception(args...)`,
throw_exception.hpp 38). -/
def ranks (ns : Ns) (c : Ctor) (args : List Ty) : Option (List Nat) :=
  if args.length ≤ c.params.length ∧ c.params.length ≤ args.length + c.defaults then
    (args.zip c.params).mapM fun (a, p) => rank ns a p
  else none

/-- A constructor is better than another: no conversion is worse, and one is better or the other is a template and this one not
(`Exception(args...)`, throw_exception.hpp 38). -/
def better (c : Ctor × List Nat) (d : Ctor × List Nat) : Bool :=
  (c.2.zip d.2).all (fun (m, n) => m ≤ n) && ((c.2.zip d.2).any (fun (m, n) => m < n) || (!c.1.template && d.1.template))

/-- The constructor called, if there is a best one (`Exception(args...)`, throw_exception.hpp 38; the base class in lock_error.hpp 35-43). -/
def resolve (ns : Ns) (cs : List Ctor) (args : List Ty) : Option Ctor :=
  let viable := cs.filterMap fun c => (ranks ns c args).map (c, ·)
  (viable.find? fun c => viable.all fun d => c == d || better c d).map (·.1)

/-- The type of what a constructor passes on to the base class as text, if it passes on any: its own parameter (lock_error.hpp 39, 43; resource_error.hpp
48, 53), or a string literal (lock_error.hpp 35, resource_error.hpp 35-43). -/
def passesOn (c : Ctor) : Ty :=
  match c.params with
  | [_, .charPtr] => .charPtr
  | [_, .string] => .string
  | _ => .literal

/-- The first argument: type and value.  `int`: mutex_posix.hpp 89; `DWORD`: basic_event_windows.hpp 53; constant: unique_lock.hpp 189. -/
inductive Arg
  | int (v : Int32)
  | dword (v : UInt32)
  | errc (c : Errc)
  deriving DecidableEq, Repr

/-- The type of the first argument (throw_exception.hpp 36). -/
def Arg.ty : Arg → Ty
  | .int _ => .int
  | .dword _ => .dword
  | .errc _ => .errc

/-- Conversion of the argument to `int`: implicit (runtime_exception.hpp 38), or with `static_cast` (resource_error.hpp 43, 53). -/
def Arg.toInt (p : Platform) : Arg → Int32
  | .int v => v
  | .dword v => v.toInt32
  | .errc c => p.errno c

/-- An exception: its class and the value of its error code; the category is always `system_category()` (runtime_exception.hpp 34-46). -/
structure Exn where
  cls : Cls
  value : Int32
  deriving DecidableEq, Repr

/-- `Exception(code, "text")` (throw_exception.hpp 38, 54): `none` if the program is ill-formed because no constructor fits, or none is best.  The classes
derived from `runtime_exception` pass an `int` and the text on to it (lock_error.hpp 35-43, resource_error.hpp 35-53). -/
def construct (ns : Ns) (p : Platform) (cls : Cls) (a : Arg) : Option Exn :=
  match resolve ns (ctors cls) [a.ty, .literal] with
  | none => none
  | some c =>
    if cls = .runtimeException then some ⟨cls, a.toInt p⟩
    else match resolve ns (ctors .runtimeException) [.int, passesOn c] with
      | none => none
      | some _ => some ⟨cls, a.toInt p⟩

/-- `native_error()`, runtime_exception.hpp 53-56. -/
def Exn.nativeError (e : Exn) : Int32 := e.value

/-- An error condition: of the generic category, or of the system category (`code()`, runtime_exception.hpp 55, of `system_error`). -/
inductive Cond
  | generic (v : Int32)
  | system (v : Int32)
  deriving DecidableEq, Repr

/-- `code() == errc` as the user writes it (the base class `system_error`, runtime_exception.hpp 31): the category of the code, `system_category()`
(34-46), is asked for the condition that belongs to the value. -/
def Exn.is (cat : Int32 → Cond) (p : Platform) (e : Exn) (c : Errc) : Bool := cat e.value == .generic (p.errno c)

/-- The first argument at a place that throws (as in `Arg`; mutex_posix.hpp 92, basic_event_windows.hpp 54, unique_lock.hpp 189). -/
inductive Source
  | int | dword | errc (c : Errc)
  deriving DecidableEq, Repr

/-- Places with the same class and kind of code (e.g. unique_lock.hpp 189, 201). -/
structure Site where
  file : String
  lines : List Nat
  cls : Cls
  src : Source
  deriving DecidableEq, Repr

/-- All uses of `BOOST_SYNC_DETAIL_THROW` (throw_exception.hpp 72-73) with an error code; file and lines are in the table (unique_lock.hpp 189 and so on). -/
def sites : List Site :=
  [⟨"detail/auto_handle.hpp", [97], .resourceError, .dword⟩,
   ⟨"detail/condition_variables/basic_condition_variable_windows.hpp", [92], .resourceError, .dword⟩,
   ⟨"detail/condition_variables/basic_condition_variable_windows.hpp", [229, 343, 395, 432], .waitError, .dword⟩,
   ⟨"detail/condition_variables/condition_variable_posix.hpp", [80], .resourceError, .int⟩,
   ⟨"detail/condition_variables/condition_variable_posix.hpp", [210, 226], .waitError, .int⟩,
   ⟨"detail/events/basic_event_windows.hpp", [54], .resourceError, .dword⟩,
   ⟨"detail/events/basic_event_windows.hpp", [69, 79], .runtimeException, .dword⟩,
   ⟨"detail/events/basic_event_windows.hpp", [89, 102, 131, 149, 156], .waitError, .dword⟩,
   ⟨"detail/mutexes/basic_mutex_windows.hpp", [121], .resourceError, .dword⟩,
   ⟨"detail/mutexes/basic_mutex_windows.hpp", [173], .lockError, .dword⟩,
   ⟨"detail/mutexes/mutex_posix.hpp", [77], .resourceError, .int⟩,
   ⟨"detail/mutexes/mutex_posix.hpp", [92, 108], .lockError, .int⟩,
   ⟨"detail/mutexes/timed_mutex_posix.hpp", [102, 107], .resourceError, .int⟩,
   ⟨"detail/mutexes/timed_mutex_posix.hpp", [127, 142, 219, 237], .lockError, .int⟩,
   ⟨"detail/mutexes/timed_mutex_windows.hpp", [127, 136, 194], .lockError, .dword⟩,
   ⟨"detail/semaphore/basic_semaphore_mach.hpp", [51], .resourceError, .errc .not_enough_memory⟩,
   ⟨"detail/semaphore/basic_semaphore_mach.hpp", [79, 82, 163, 166], .waitError, .errc .invalid_argument⟩,
   ⟨"detail/semaphore/basic_semaphore_mach.hpp", [89, 170], .waitError, .errc .operation_canceled⟩,
   ⟨"detail/semaphore/semaphore_dispatch.hpp", [50], .resourceError, .errc .not_enough_memory⟩,
   ⟨"detail/semaphore/semaphore_posix.hpp", [49], .resourceError, .int⟩,
   ⟨"detail/semaphore/semaphore_posix.hpp", [68], .overflowError, .int⟩,
   ⟨"detail/semaphore/semaphore_windows.hpp", [55], .resourceError, .dword⟩,
   ⟨"detail/semaphore/semaphore_windows.hpp", [70], .overflowError, .dword⟩,
   ⟨"detail/semaphore/semaphore_windows.hpp", [79, 90, 138, 156], .waitError, .dword⟩,
   ⟨"detail/semaphore/semaphore_windows.hpp", [174], .lockError, .dword⟩,
   ⟨"detail/waitable_timer.hpp", [181, 237, 284], .resourceError, .dword⟩,
   ⟨"locks/shared_lock.hpp", [151, 163, 177, 191, 205, 218, 221], .lockError, .errc .operation_not_permitted⟩,
   ⟨"locks/shared_lock.hpp", [154, 166, 180, 194, 208], .lockError, .errc .resource_deadlock_would_occur⟩,
   ⟨"locks/unique_lock.hpp", [189, 201, 215, 229, 243, 256, 259], .lockError, .errc .operation_not_permitted⟩,
   ⟨"locks/unique_lock.hpp", [192, 204, 218, 232, 246], .lockError, .errc .resource_deadlock_would_occur⟩,
   ⟨"locks/upgrade_lock.hpp", [171, 183, 197, 211, 225, 238, 241], .lockError, .errc .operation_not_permitted⟩,
   ⟨"locks/upgrade_lock.hpp", [174, 186, 200, 214, 228], .lockError, .errc .resource_deadlock_would_occur⟩]

/-- An argument that a place may pass: any value of its type (mutex_posix.hpp 89, basic_event_windows.hpp 53), or its constant (unique_lock.hpp 189). -/
def Source.passes : Source → Arg → Bool
  | .int, .int _ => true
  | .dword, .dword _ => true
  | .errc c, .errc d => c == d
  | _, _ => false

/-- The exception a lock object throws for misuse (unique_lock.hpp 189, 192, 201, 204, 215, 218, 229, 232, 243, 246, 256, 259; likewise in upgrade_lock.hpp
171-241 and shared_lock.hpp 151-221): `none` if throwing it does not compile. -/
def misuse (ns : Ns) (p : Platform) : Locks.Err → Option Exn
  | .notPermitted => construct ns p .lockError (.errc .operation_not_permitted)
  | .wouldDeadlock => construct ns p .lockError (.errc .resource_deadlock_would_occur)
  | .fromMutex => none

end Verif.ErrCode
