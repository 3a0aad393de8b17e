import Verif.Proof.ErrCode

/-!
# The error codes of exceptions: property C107

For all classes, all values of codes, all values of the constants of `errc` and all assignments of conditions to values.
-/

namespace Verif.ErrCode

/-- **C107.**  With Boost.System every exception can be constructed from every kind of error code, has the class asked for and tells the code: nothing of it is
lost, not even of codes of Windows that exceed an `int`. -/
theorem C107_boost (p : Platform) (cls : Cls) (a : Arg) : ∃ e, construct .boost p cls a = some e ∧ e.cls = cls ∧ Tells p e a := by
  have h : ∀ x : Exn, x = ⟨cls, a.toInt p⟩ → x.cls = cls ∧ Tells p x a := fun x hx => by subst hx; exact ⟨rfl, tells p cls a⟩
  refine ⟨⟨cls, a.toInt p⟩, ?_, h _ rfl⟩
  cases cls <;> cases a <;> rfl

example : ∃ e, construct .boost linux .resourceError (.errc .not_enough_memory) = some e ∧ e.nativeError = 12 := ⟨_, rfl, rfl⟩
example : ∃ e, construct .boost windows .waitError (.dword 0x80070006) = some e ∧ e.nativeError = -2147024890 ∧ e.nativeError.toUInt32 = 0x80070006 :=
  ⟨_, rfl, by decide, by decide⟩

/-- **C107**, with the standard library's `system_error`: the same for every exception but those with a constant of `errc` whose class is not
`resource_error`; for these the program does not compile.  Missing: the latter. -/
theorem C107_std_partial (p : Platform) (cls : Cls) (a : Arg) :
    (∃ e, construct .std p cls a = some e ∧ e.cls = cls ∧ Tells p e a) ↔ ∀ c, a = .errc c → cls = .resourceError := by
  constructor
  · rintro ⟨e, he, -, -⟩ c rfl
    cases cls <;> first | rfl | (revert he; simp [construct, resolve, ctors, ranks, rank, Arg.ty])
  · intro h
    have h' : ∀ x : Exn, x = ⟨cls, a.toInt p⟩ → x.cls = cls ∧ Tells p x a := fun x hx => by subst hx; exact ⟨rfl, tells p cls a⟩
    refine ⟨⟨cls, a.toInt p⟩, ?_, h' _ rfl⟩
    cases a with
    | errc c => cases h c rfl; rfl
    | int v => cases cls <;> rfl
    | dword v => cases cls <;> rfl

example : ∃ e, construct .std linux .resourceError (.errc .not_enough_memory) = some e ∧ e.nativeError = 12 := ⟨_, rfl, rfl⟩
example : (construct .std linux .waitError (.int 22)).isSome = true := rfl

/-- The places that do not compile with the standard library's `system_error` are those in the lock objects and in the waits of the Mach semaphore. -/
theorem C107_std_sites (p : Platform) : ∀ s ∈ sites, ∀ a, s.src.passes a = true →
    (construct .std p s.cls a = none ↔
      s.file ∈ ["locks/unique_lock.hpp", "locks/upgrade_lock.hpp", "locks/shared_lock.hpp"] ∨
      s.file = "detail/semaphore/basic_semaphore_mach.hpp" ∧ s.cls = .waitError) := by
  intro s hs a ha
  have key : ∀ s ∈ sites, ∀ b ∈ [Arg.int 0, .dword 0, .errc .invalid_argument],
      (s.src.passes b = true ∨ (∃ c, s.src = .errc c) ∧ b = .errc .invalid_argument) →
      ((construct .std linux s.cls b).isSome = false ↔
        s.file ∈ ["locks/unique_lock.hpp", "locks/upgrade_lock.hpp", "locks/shared_lock.hpp"] ∨
        s.file = "detail/semaphore/basic_semaphore_mach.hpp" ∧ s.cls = .waitError) := by
    have : ∀ s ∈ sites, ∀ b ∈ [Arg.int 0, .dword 0, .errc .invalid_argument],
      ((s.src.passes b || (match s.src with | .errc _ => true | _ => false) && b == .errc .invalid_argument) = true →
      ((construct .std linux s.cls b).isSome = false ↔
        s.file ∈ ["locks/unique_lock.hpp", "locks/upgrade_lock.hpp", "locks/shared_lock.hpp"] ∨
        s.file = "detail/semaphore/basic_semaphore_mach.hpp" ∧ s.cls = .waitError)) := by decide +kernel
    intro s hs b hb h
    refine this s hs b hb ?_
    rcases h with h | ⟨⟨c, h⟩, rfl⟩
    · simp [h]
    · simp [h]
  rw [← Option.isNone_iff_eq_none, ← Option.not_isSome, Bool.not_eq_true']
  cases a with
  | int v =>
    rw [construct_ty .std p linux s.cls (a := .int v) (b := .int 0) rfl]
    refine key s hs _ (by simp) (.inl ?_)
    revert ha; cases s.src <;> exact id
  | dword v =>
    rw [construct_ty .std p linux s.cls (a := .dword v) (b := .dword 0) rfl]
    refine key s hs _ (by simp) (.inl ?_)
    revert ha; cases s.src <;> exact id
  | errc c =>
    rw [construct_ty .std p linux s.cls (a := .errc c) (b := .errc .invalid_argument) rfl]
    refine key s hs _ (by simp) (.inr ⟨?_, rfl⟩)
    cases hc : s.src with
    | errc c => exact ⟨c, rfl⟩
    | int => rw [hc] at ha; exact nomatch ha
    | dword => rw [hc] at ha; exact nomatch ha

example : (sites.filter fun s => s.src.passes (.errc .not_enough_memory)).length = 2 := by decide

/-- **C107 is false with the standard library's `system_error`:** whatever the platform, throwing for misuse of a lock object does not compile. -/
theorem C107_std_refuted (p : Platform) : misuse .std p .notPermitted = none ∧ misuse .std p .wouldDeadlock = none := ⟨rfl, rfl⟩

/-- **C107**, comparison with `errc`: where the values of the system are those of `errc`, the code compares equal to the constant the exception was thrown with.
Missing: Windows. -/
theorem C107_condition_partial {ns : Ns} {p : Platform} {cat : Int32 → Cond} (hp : Posix p cat) {cls : Cls} {c : Errc} {e : Exn}
    (h : construct ns p cls (.errc c) = some e) (d : Errc) : e.is cat p d = true ↔ p.errno d = p.errno c := by
  rw [construct_some h]
  simp only [Exn.is, Arg.toInt, hp c, beq_iff_eq, Cond.generic.injEq]
  exact eq_comm

example : Posix linux .generic := fun _ => rfl
example : ∃ e, construct .boost linux .waitError (.errc .invalid_argument) = some e ∧ e.is .generic linux .invalid_argument = true ∧
    e.is .generic linux .operation_canceled = false := ⟨_, rfl, by decide, by decide⟩

/-- **C107 is false on Windows:** the exceptions for misuse of lock objects compare equal to no constant of `errc` they are thrown with; one of them means "function not
supported". -/
theorem C107_condition_refuted : ∃ e e', misuse .boost windows .notPermitted = some e ∧ e.is windowsCat windows .operation_not_permitted = false ∧
    windowsCat e.value = .generic 40 ∧
    misuse .boost windows .wouldDeadlock = some e' ∧ e'.is windowsCat windows .resource_deadlock_would_occur = false :=
  ⟨_, _, rfl, by decide, by decide, rfl, by decide⟩

/-- **C107**, lock objects: with Boost.System misuse throws a `lock_error` with the constant the standard demands: `operation_not_permitted` if there is no mutex or, when unlocking,
it is not owned, `resource_deadlock_would_occur` if it is owned already. -/
theorem C107_lock_objects (p : Platform) (l l' : Locks.Lock) (a : Locks.Ans) (tr : List Locks.Ev) (err : Locks.Err) (h : Locks.Ev.threw err ∈ tr)
    (ha : a ≠ .throws) :
    ((Locks.doLock l a = some (l', tr) ∨ Locks.doTry l a = some (l', tr)) →
      ∃ e, misuse .boost p err = some e ∧ e.cls = .lockError ∧
        Tells p e (.errc (if l.mutex = none then .operation_not_permitted else .resource_deadlock_would_occur))) ∧
    (Locks.doUnlock l a = some (l', tr) →
      ∃ e, misuse .boost p err = some e ∧ e.cls = .lockError ∧ Tells p e (.errc .operation_not_permitted)) := by
  have h1 : Locks.doLock l a = some (l', tr) ∨ Locks.doTry l a = some (l', tr) → err = if l.mutex = none then .notPermitted else .wouldDeadlock := by
    obtain ⟨k, m, o⟩ := l
    rintro (hd | hd) <;> cases m <;> cases o <;> cases a <;> cases hd <;> simp_all
  have h2 : Locks.doUnlock l a = some (l', tr) → err = .notPermitted := by
    obtain ⟨k, m, o⟩ := l
    intro hd; cases m <;> cases o <;> cases a <;> cases hd <;> simp_all
  refine ⟨fun hd => ?_, fun hd => ?_⟩
  · rw [h1 hd]
    cases hm : l.mutex with
    | none => exact ⟨_, rfl, rfl, rfl⟩
    | some m => exact ⟨_, rfl, rfl, rfl⟩
  · rw [h2 hd]
    exact ⟨_, rfl, rfl, rfl⟩

example : Locks.doUnlock ⟨.unique, some 3, false⟩ .yes = some (⟨.unique, some 3, false⟩, [.threw .notPermitted]) := rfl

end Verif.ErrCode
