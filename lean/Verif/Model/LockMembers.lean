/-!
# Which members of the lock classes can be used

Models the members of `unique_lock` (locks/unique_lock.hpp 53-300), `shared_lock` (locks/shared_lock.hpp 53-262) and `upgrade_lock` (locks/upgrade_lock.hpp 53-282): which functions of the mutex
and which members of other locks their bodies name.  They are members of templates: a body is compiled when it is used, and it compiles only if the mutex has the functions
and the members named are accessible.  The classes have no `friend` declarations, so the private members of another class are not.

Simplifications: of a function of a mutex only the name matters (for the types of timeouts see `Verif.Instantiate`).
-/

namespace Verif.LockMembers

/-- The lock classes: unique_lock.hpp 54, shared_lock.hpp 54, upgrade_lock.hpp 54. -/
inductive Lock
  | unique | shared | upgrade
  deriving DecidableEq, Repr

/-- The members. -/
inductive Member
  /-- `unique_lock(mutex_type& m)`: unique_lock.hpp 72-76 -/
  | ctor
  /-- `unique_lock(mutex_type& m, adopt_lock_t)`: unique_lock.hpp 77-80 -/
  | ctorAdopt
  /-- `unique_lock(mutex_type& m, defer_lock_t)`: unique_lock.hpp 81-84 -/
  | ctorDefer
  /-- `unique_lock(mutex_type& m, try_to_lock_t)`: unique_lock.hpp 85-89 -/
  | ctorTry
  /-- `unique_lock(mutex_type& m, Time const& t)`: unique_lock.hpp 91-96 -/
  | ctorTime
  /-- the move constructor: unique_lock.hpp 98-103 -/
  | move
  /-- the destructor: unique_lock.hpp 167-171 -/
  | dtor
  /-- move assignment: unique_lock.hpp 173-177 -/
  | assign
  /-- unique_lock.hpp 186-196 -/
  | lock
  /-- unique_lock.hpp 198-209 -/
  | tryLock
  /-- unique_lock.hpp 211-223 -/
  | timedLock
  /-- unique_lock.hpp 225-237 -/
  | tryLockFor
  /-- unique_lock.hpp 239-251 -/
  | tryLockUntil
  /-- unique_lock.hpp 253-263 -/
  | unlock
  /-- `swap`: unique_lock.hpp 290-298 -/
  | swap
  /-- `explicit unique_lock(upgrade_lock&& that)`: unique_lock.hpp 105-111 -/
  | convert (src : Lock)
  /-- `unique_lock(upgrade_lock&& ul, try_to_lock_t)`: unique_lock.hpp 114-129 -/
  | convertTry (src : Lock)
  /-- `unique_lock(shared_lock&& sl, Time const& t)`: unique_lock.hpp 149-165 -/
  | convertTimed (src : Lock)
  /-- `operator= (upgrade_lock&& that)`: unique_lock.hpp 179-184 -/
  | assignFrom (src : Lock)
  deriving DecidableEq, Repr

/-- What a body names. -/
inductive Use
  /-- a function of the mutex, e.g. `m_mutex->lock()`, unique_lock.hpp 194 -/
  | mutex (name : String)
  /-- `m_mutex` or `m_is_locked` (private, unique_lock.hpp 60-61) of an object of the class -/
  | field (cls : Lock)
  /-- `owns_lock()`, `mutex()` or `release()` (public, unique_lock.hpp 272-288) of an object of the class -/
  | query (cls : Lock)
  /-- another member of the same class, e.g. `lock()`, unique_lock.hpp 75 -/
  | own (m : Member)
  deriving DecidableEq, Repr

/-- The members that are alike in the three classes (line numbers of unique_lock.hpp 72-300), with the names of the functions of the mutex. -/
def common (l : Lock) (lock tryLock timedLock tryLockFor tryLockUntil unlock : String) : Member → Option (List Use)
  | .ctor => some [.field l, .own .lock]
  | .ctorAdopt => some [.field l]
  | .ctorDefer => some [.field l]
  | .ctorTry => some [.field l, .own .tryLock]
  | .ctorTime => some [.field l, .own .timedLock]
  | .move => some [.field l]
  | .dtor => some [.field l, .mutex unlock]
  | .assign => some [.own .swap]
  | .lock => some [.field l, .mutex lock]
  | .tryLock => some [.field l, .mutex tryLock]
  | .timedLock => some [.field l, .mutex timedLock]
  | .tryLockFor => some [.field l, .mutex tryLockFor]
  | .tryLockUntil => some [.field l, .mutex tryLockUntil]
  | .unlock => some [.field l, .mutex unlock]
  | .swap => some [.field l]
  | _ => none

/-- What the members name; `none`: the class has no such member.
unique_lock.hpp 72-103, 105-111, 114-129, 132-147, 149-165, 167-184, 186-263, 290-298; shared_lock.hpp 72-103, 106-112, 114-120, 122-147, 149-225, 252-260;
upgrade_lock.hpp 72-103, 105-111, 114-129, 131-147, 149-166, 168-245, 272-280. -/
def body : Lock → Member → Option (List Use)
  -- unique_lock.hpp 105-111
  | .unique, .convert .upgrade => some [.field .upgrade, .field .unique, .mutex "unlock_upgrade_and_lock", .query .upgrade]
  -- unique_lock.hpp 114-129
  | .unique, .convertTry .upgrade => some [.field .unique, .query .upgrade, .mutex "try_unlock_upgrade_and_lock"]
  -- unique_lock.hpp 132-147
  | .unique, .convertTry .shared => some [.field .unique, .query .shared, .mutex "try_unlock_shared_and_lock"]
  -- unique_lock.hpp 149-165
  | .unique, .convertTimed .shared => some [.field .unique, .query .shared, .mutex "timed_unlock_shared_and_lock"]
  -- unique_lock.hpp 179-184
  | .unique, .assignFrom .upgrade => some [.own (.convert .upgrade), .own .swap, .own .dtor]
  -- unique_lock.hpp 170, 194, 206, 220, 234, 248, 261
  | .unique, m => common .unique "lock" "try_lock" "timed_lock" "try_lock_for" "try_lock_until" "unlock" m
  -- shared_lock.hpp 106-112
  | .shared, .convert .unique => some [.field .unique, .field .shared, .mutex "unlock_and_lock_shared", .query .unique]
  -- shared_lock.hpp 114-120
  | .shared, .convert .upgrade => some [.field .upgrade, .field .shared, .mutex "unlock_upgrade_and_lock_shared", .query .upgrade]
  -- shared_lock.hpp 134-139
  | .shared, .assignFrom .unique => some [.own (.convert .unique), .own .swap, .own .dtor]
  -- shared_lock.hpp 141-146
  | .shared, .assignFrom .upgrade => some [.own (.convert .upgrade), .own .swap, .own .dtor]
  -- shared_lock.hpp 125, 156, 168, 182, 196, 210, 223
  | .shared, m => common .shared "lock_shared" "try_lock_shared" "timed_lock_shared" "try_lock_shared_for" "try_lock_shared_until" "unlock_shared" m
  -- upgrade_lock.hpp 105-111
  | .upgrade, .convert .unique => some [.field .unique, .field .upgrade, .mutex "unlock_and_lock_upgrade", .query .unique]
  -- upgrade_lock.hpp 114-129
  | .upgrade, .convertTry .shared => some [.field .upgrade, .query .shared, .mutex "try_unlock_shared_and_lock_upgrade"]
  -- upgrade_lock.hpp 131-147
  | .upgrade, .convertTimed .shared => some [.field .upgrade, .query .shared, .mutex "timed_unlock_shared_and_lock_upgrade"]
  -- upgrade_lock.hpp 161-166
  | .upgrade, .assignFrom .unique => some [.own (.convert .unique), .own .swap, .own .dtor]
  -- upgrade_lock.hpp 152, 176, 188, 202, 216, 230, 243
  | .upgrade, m =>
    common .upgrade "lock_upgrade" "try_lock_upgrade" "timed_lock_upgrade" "try_lock_upgrade_for" "try_lock_upgrade_until" "unlock_upgrade" m

/-- Is what is named there and accessible in class `l`, with a mutex that has the functions `has`?  Private members are accessible in the class itself only
(unique_lock.hpp 59-61: `private:`, no `friend`). -/
def accessible (has : String → Prop) (l : Lock) : Use → Prop
  | .mutex n => has n
  | .field c => c = l
  | .query _ => True
  | .own _ => True

/-- The member can be used with a mutex that has the functions `has`: its body and the members of the class it uses compile (unique_lock.hpp 72-300). -/
inductive Usable (has : String → Prop) (l : Lock) : Member → Prop
  | intro {m} (us : List Use) (hb : body l m = some us) (ha : ∀ u ∈ us, accessible has l u)
      (ho : ∀ m', .own m' ∈ us → Usable has l m') : Usable has l m

/-- The mutexes of the library. -/
inductive LibMutex
  | mutex | timedMutex | spinMutex | sharedSpinMutex
  deriving DecidableEq, Repr

/-- Their public functions: mutex_posix.hpp 87, 96, 101, mutex_windows.hpp 49, 54, 59; timed_mutex_posix.hpp 123, 130, 135, 177, 183, 189, timed_mutex_windows.hpp 65, 70, 75, 81, 90, 99; spin_mutex.hpp
57, 69, 74; shared_spin_mutex.hpp 57, 71, 81, 87, 105, 118. -/
def functions : LibMutex → List String
  | .mutex => ["lock", "unlock", "try_lock"]
  | .timedMutex => ["lock", "unlock", "try_lock", "timed_lock", "try_lock_for", "try_lock_until"]
  | .spinMutex => ["lock", "try_lock", "unlock"]
  | .sharedSpinMutex => ["lock", "try_lock", "unlock", "lock_shared", "try_lock_shared", "unlock_shared"]

end Verif.LockMembers
