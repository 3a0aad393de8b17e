import Verif.Model.ErrCode

/-! What an exception tells its handler. -/

namespace Verif.ErrCode

/-- The exception tells the code it was constructed with: the value itself, a code of Windows up to the sign, the value of the constant. -/
def Tells (p : Platform) (e : Exn) : Arg → Prop
  | .int v => e.nativeError = v
  | .dword v => e.nativeError.toUInt32 = v
  | .errc c => e.nativeError = p.errno c

/-- The error values of the system are those of `errc`, as on POSIX systems. -/
def Posix (p : Platform) (cat : Int32 → Cond) : Prop := ∀ c, cat (p.errno c) = .generic (p.errno c)

/-- The values of the constants of `errc` on Windows (`EPERM`, `EDEADLK`, `ENOMEM`, `EINVAL`, `ECANCELED` of its C library). -/
def windows : Platform := ⟨fun
  | .operation_not_permitted => 1
  | .resource_deadlock_would_occur => 36
  | .not_enough_memory => 12
  | .invalid_argument => 22
  | .operation_canceled => 105⟩

/-- Conditions that belong to error values of Windows: 1 `ERROR_INVALID_FUNCTION` is `ENOSYS`, 12 `ERROR_INVALID_ACCESS` is `EACCES`, 87
`ERROR_INVALID_PARAMETER` is `EINVAL`, 8 `ERROR_NOT_ENOUGH_MEMORY` is `ENOMEM`; others are left out here. -/
def windowsCat (v : Int32) : Cond :=
  if v = 1 then .generic 40 else if v = 12 then .generic 13 else if v = 87 then .generic 22 else if v = 8 then .generic 12 else .system v

/-- The values of the constants of `errc` on Linux. -/
def linux : Platform := ⟨fun
  | .operation_not_permitted => 1
  | .resource_deadlock_would_occur => 35
  | .not_enough_memory => 12
  | .invalid_argument => 22
  | .operation_canceled => 125⟩

end Verif.ErrCode
