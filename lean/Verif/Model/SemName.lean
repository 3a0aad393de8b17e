/-!
# The name of the semaphore that holds the TLS key

Models the composition of `sem_name` in `waitable_timer_state::init` (`include/boost/sync/detail/waitable_timer.hpp` lines
142-163).  A character is its code (`wchar_t` is 16 bits wide on Windows; all codes used are below 128).
-/

namespace Verif.SemName

/-- Lines 143-146: the array has 24 elements, those without initialiser are zero. -/
def template : List Nat :=
  "boost_sync_tls_".toList.map Char.toNat ++ List.replicate 9 0

/-- Lines 152-155 and 158-161. -/
def digit (half : UInt8) : Nat :=
  if half < 10 then '0'.toNat + half.toNat else 'a'.toNat - 10 + half.toNat

/-- Line 150. -/
def byte (pid : UInt32) (i : Nat) : UInt8 := (pid >>> (UInt32.ofNat ((3 - i) * 8))).toUInt8

/-- The body of the loop (lines 150-161). -/
def body (pid : UInt32) (name : List Nat) (i : Nat) : List Nat :=
  let b := byte pid i
  (name.set (15 + i * 2) (digit (b >>> 4))).set (16 + i * 2) (digit (b &&& 0x0f))

/-- Lines 143-163. -/
def semName (pid : UInt32) : List Nat :=
  ((List.range 4).foldl (body pid) template).set 23 0

end Verif.SemName
