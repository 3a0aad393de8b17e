import Verif.Proof.LockMembers

/-!
# C110: the members of the lock classes can be used with every mutex that has the functions they are named after

False of the conversions between the classes that do not have to be tried: their bodies read private members of another class.
-/

namespace Verif.LockMembers

/-- Exactly when a member can be used, for every mutex: when the mutex has the functions the name of the member says, and the member is not a
conversion from another class (without `try_to_lock` or a time). -/
theorem C110_exact (has : String → Prop) (l : Lock) (m : Member) (ho : Offered l m) :
    Usable has l m ↔ (∀ n ∈ needed l m, has n) ∧ ¬ Converts m := by
  obtain ⟨h1, h2, h3, h4, h5⟩ := simple_members (has := has) (l := l)
  cases m with
  | convert s => simp [Converts, not_convert]
  | assignFrom s => simp [Converts, not_assignFrom]
  | convertTry s =>
    rcases ho with ⟨rfl, rfl⟩ | ⟨rfl, rfl⟩ | ⟨rfl, rfl⟩ <;> rw [usable_of_body rfl] <;> simp [accessible, needed, Converts, conversion, suffix]
  | convertTimed s =>
    rcases ho with ⟨rfl, rfl⟩ | ⟨rfl, rfl⟩ <;> rw [usable_of_body rfl] <;> simp [accessible, needed, Converts, conversion, suffix]
  | _ =>
    first
    | simpa [needed, Converts] using h1
    | simpa [needed, Converts] using h2
    | simpa [needed, Converts] using h3
    | simpa [needed, Converts] using h4
    | simpa [needed, Converts] using h5
    | (cases l <;> rw [usable_of_body rfl] <;> simp_all [accessible, needed, Converts, suffix])

/-- The claim for all members but the conversions that always succeed. -/
theorem C110_usable_partial (has : String → Prop) (l : Lock) (m : Member) (ho : Offered l m) (hc : ¬ Converts m) (hn : ∀ n ∈ needed l m, has n) :
    Usable has l m :=
  (C110_exact has l m ho).2 ⟨hn, hc⟩

/-- Whatever functions the mutex has, none of the conversions that always succeed can be used: a `unique_lock` can be made neither an `upgrade_lock` nor a `shared_lock`, nor an
`upgrade_lock` a `unique_lock` or `shared_lock`, neither by construction nor by assignment. -/
theorem C110_conversions_refuted (l s : Lock) : ¬ Usable (fun _ => True) l (.convert s) ∧ ¬ Usable (fun _ => True) l (.assignFrom s) :=
  ⟨not_convert, not_assignFrom⟩

/-- Members that are not offered do not exist. -/
theorem C110_absent (has : String → Prop) (l : Lock) (m : Member) (ho : ¬ Offered l m) : body l m = none ∧ ¬ Usable has l m := by
  have : body l m = none := by
    cases m with
    | convert s | assignFrom s | convertTry s | convertTimed s => cases l <;> cases s <;> first | rfl | exact absurd (by simp [Offered]) ho
    | _ => exact absurd trivial ho
  refine ⟨this, fun h => ?_⟩
  obtain ⟨us, hb, -⟩ := usable_iff.1 h
  rw [this] at hb
  cases hb

/-- `upgrade_lock` cannot lock or unlock any mutex of the library, and no mutex of the library supports any conversion. -/
theorem C110_library_upgrade (x : LibMutex) :
    (∀ m ∈ [Member.ctor, .ctorTry, .ctorTime, .lock, .tryLock, .timedLock, .tryLockFor, .tryLockUntil, .unlock, .dtor], ¬ Usable (· ∈ functions x) .upgrade m) ∧
    ∀ l s, ¬ Usable (· ∈ functions x) l (.convert s) ∧ ¬ Usable (· ∈ functions x) l (.convertTry s) ∧ ¬ Usable (· ∈ functions x) l (.convertTimed s) ∧
      ¬ Usable (· ∈ functions x) l (.assignFrom s) := by
  refine ⟨?_, fun l s => ⟨not_convert, ?_, ?_, not_assignFrom⟩⟩
  · intro m hm h
    simp only [List.mem_cons, List.not_mem_nil, or_false] at hm
    rcases hm with rfl | rfl | rfl | rfl | rfl | rfl | rfl | rfl | rfl | rfl <;>
      (have := ((C110_exact _ .upgrade _ (by exact trivial)).1 h).1
       cases x <;> simp [needed, suffix, functions] at this)
  · intro h
    by_cases ho : Offered l (.convertTry s)
    · have := ((C110_exact _ _ _ ho).1 h).1
      rcases ho with ⟨rfl, rfl⟩ | ⟨rfl, rfl⟩ | ⟨rfl, rfl⟩ <;> cases x <;> simp [needed, conversion, suffix, functions] at this
    · exact (C110_absent _ _ _ ho).2 h
  · intro h
    by_cases ho : Offered l (.convertTimed s)
    · have := ((C110_exact _ _ _ ho).1 h).1
      rcases ho with ⟨rfl, rfl⟩ | ⟨rfl, rfl⟩ <;> cases x <;> simp [needed, conversion, suffix, functions] at this
    · exact (C110_absent _ _ _ ho).2 h

/-- With the mutexes of the library, `unique_lock` can be used without timeouts for all, with timeouts exactly for `timed_mutex`; `shared_lock` exactly for `shared_spin_mutex`, without timeouts. -/
theorem C110_library (x : LibMutex) :
    (∀ m ∈ [Member.ctor, .ctorAdopt, .ctorDefer, .ctorTry, .move, .dtor, .assign, .lock, .tryLock, .unlock, .swap], Usable (· ∈ functions x) .unique m) ∧
    (∀ m ∈ [Member.ctorTime, .timedLock, .tryLockFor, .tryLockUntil], Usable (· ∈ functions x) .unique m ↔ x = .timedMutex) ∧
    (∀ m ∈ [Member.ctor, .ctorTry, .dtor, .lock, .tryLock, .unlock], Usable (· ∈ functions x) .shared m ↔ x = .sharedSpinMutex) ∧
    (∀ m ∈ [Member.ctorTime, .timedLock, .tryLockFor, .tryLockUntil], ¬ Usable (· ∈ functions x) .shared m) := by
  refine ⟨?_, ?_, ?_, ?_⟩ <;> intro m hm <;> simp only [List.mem_cons, List.not_mem_nil, or_false] at hm
  · rcases hm with rfl | rfl | rfl | rfl | rfl | rfl | rfl | rfl | rfl | rfl | rfl <;> rw [C110_exact] <;>
      first
      | exact trivial
      | (cases x <;> simp [needed, suffix, functions, Converts])
  · rcases hm with rfl | rfl | rfl | rfl <;> rw [C110_exact] <;>
      first
      | exact trivial
      | (cases x <;> simp [needed, suffix, functions, Converts])
  · rcases hm with rfl | rfl | rfl | rfl | rfl | rfl <;> rw [C110_exact] <;>
      first
      | exact trivial
      | (cases x <;> simp [needed, suffix, functions, Converts])
  · rcases hm with rfl | rfl | rfl | rfl <;> rw [C110_exact] <;>
      first
      | exact trivial
      | (cases x <;> simp [needed, suffix, functions, Converts])

/-! Cases: a mutex with one function; a conversion that is tried. -/

example : Usable (· = "lock_shared") .shared .ctor := C110_usable_partial _ _ _ trivial id (by simp [needed, suffix])
example : Usable (· = "try_unlock_shared_and_lock_upgrade") .upgrade (.convertTry .shared) :=
  C110_usable_partial _ _ _ (by simp [Offered]) id (by simp [needed, suffix, conversion])
example : ¬ Usable (· = "lock_shared") .unique .lock := fun h => by simpa [needed, suffix] using ((C110_exact _ .unique .lock trivial).1 h).1
/-- The conversion should be there, and the mutex has all it needs. -/
example : Offered .shared (.convert .unique) ∧ needed .shared (.convert .unique) = ["unlock_and_lock_shared"] := by simp [Offered, needed, conversion, suffix]
example : ¬ Offered .shared (.convertTry .unique) := by simp [Offered]

end Verif.LockMembers
