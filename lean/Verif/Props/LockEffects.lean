import Verif.Props.Locks

/-! # C53: what each operation on a lock object does and reports

The statements are about what the user sees: `mutex()` and `owns_lock()` before and after the call, the value returned, and
the calls of the mutex. -/

namespace Verif.Locks

/-- What the user sees of object `i`: its kind, `mutex()` and `owns_lock()`. -/
def Sees (s : St) (i : Nat) (k : Kind) (m : Option Nat) (b : Bool) : Prop := s[i]? = some (some ⟨k, m, b⟩)

theorem sees_set {s : St} {i : Nat} {k : Kind} {m : Option Nat} {b : Bool} {l : Lock} (h : Sees s i k m b) :
    Sees (s.set i (some l)) i l.kind l.mutex l.owns := get_set_self h

/-- **C53.**  An attempt to lock that returns: it returns true iff the mutex was acquired, and then, and only then, the object
owns it afterwards. -/
theorem C53_try_result {s s' : St} {i : Nat} {op : Op} {a : Ans} {es : List Ev} {k : Kind} {x : Option Nat} {b r : Bool}
    (hop : op = .tryLock i ∨ op = .timedLock i) (hi : Sees s i k x b) (hs : step s (op, a) = some (s', es))
    (hr : Ev.retBool r ∈ es) :
    ∃ m, x = some m ∧ b = false ∧ Sees s' i k (some m) r ∧ es.count (.acquired k m) = (if r then 1 else 0) := by
  have key : onObj s i (doTry · a) = some (s', es) := by rcases hop with rfl | rfl <;> exact hs
  have hi' : s[i]? = _ := hi
  simp only [onObj, hi', doTry] at key
  cases x with
  | none => simp only [Option.some.injEq, Prod.mk.injEq] at key; obtain ⟨-, rfl⟩ := key; simp at hr
  | some m =>
    cases b with
    | true => simp only [if_true, Option.some.injEq, Prod.mk.injEq] at key; obtain ⟨-, rfl⟩ := key; simp at hr
    | false =>
      cases a <;> simp only [Bool.false_eq_true, if_false, Option.some.injEq, Prod.mk.injEq] at key <;>
        obtain ⟨rfl, rfl⟩ := key
      · simp only [List.mem_cons, List.not_mem_nil, or_false, Ev.retBool.injEq, reduceCtorEq, false_or] at hr
        subst hr
        exact ⟨m, rfl, rfl, sees_set hi, by simp⟩
      · simp only [List.mem_cons, List.not_mem_nil, or_false, Ev.retBool.injEq] at hr
        subst hr
        exact ⟨m, rfl, rfl, sees_set hi, by simp⟩
      · simp at hr

/-- **C53.**  `lock` that returns normally has acquired the mutex once, and the object owns it. -/
theorem C53_lock_result {s s' : St} {i : Nat} {a : Ans} {es : List Ev} {k : Kind} {x : Option Nat} {b : Bool}
    (hi : Sees s i k x b) (hs : step s (.lock i, a) = some (s', es)) (hr : ∀ e, Ev.threw e ∉ es) :
    ∃ m, x = some m ∧ b = false ∧ Sees s' i k (some m) true ∧ es = [.acquired k m] := by
  have hi' : s[i]? = _ := hi
  simp only [step, onObj, hi', doLock] at hs
  cases x with
  | none => simp only [Option.some.injEq, Prod.mk.injEq] at hs; obtain ⟨-, rfl⟩ := hs; simp at hr
  | some m =>
    cases b with
    | true => simp only [if_true, Option.some.injEq, Prod.mk.injEq] at hs; obtain ⟨-, rfl⟩ := hs; simp at hr
    | false =>
      cases a <;> simp only [Bool.false_eq_true, if_false, Option.some.injEq, Prod.mk.injEq, reduceCtorEq] at hs <;>
        obtain ⟨rfl, rfl⟩ := hs
      · exact ⟨m, rfl, rfl, sees_set hi, rfl⟩
      · simp at hr

/-- **C53.**  `unlock` that returns normally has unlocked, once, the mutex the object owned, and the object keeps the mutex
without owning it. -/
theorem C53_unlock_result {s s' : St} {i : Nat} {a : Ans} {es : List Ev} {k : Kind} {x : Option Nat} {b : Bool}
    (hi : Sees s i k x b) (hs : step s (.unlock i, a) = some (s', es)) (hr : ∀ e, Ev.threw e ∉ es) :
    ∃ m, x = some m ∧ b = true ∧ Sees s' i k (some m) false ∧ es = [.released k m] := by
  have hi' : s[i]? = _ := hi
  simp only [step, onObj, hi', doUnlock] at hs
  cases x with
  | none => simp only [Option.some.injEq, Prod.mk.injEq] at hs; obtain ⟨-, rfl⟩ := hs; simp at hr
  | some m =>
    cases b with
    | false => simp only [Bool.not_false, if_true, Option.some.injEq, Prod.mk.injEq] at hs; obtain ⟨-, rfl⟩ := hs; simp at hr
    | true =>
      cases a <;> simp only [Bool.not_true, Bool.false_eq_true, if_false, Option.some.injEq, Prod.mk.injEq, reduceCtorEq] at hs <;>
        obtain ⟨rfl, rfl⟩ := hs
      · exact ⟨m, rfl, rfl, sees_set hi, rfl⟩
      · simp at hr

/-- The hypotheses of the two theorems above can be met. -/
example : ∃ tr s s₁ s₂ es₁ es₂, Exec step [] tr s ∧ Sees s 1 .upgrade (some 2) false ∧ step s (.lock 1, .yes) = some (s₁, es₁) ∧ (∀ e, Ev.threw e ∉ es₁) ∧
    Sees s₁ 1 .upgrade (some 2) true ∧ step s₁ (.unlock 1, .yes) = some (s₂, es₂) ∧ ∀ e, Ev.threw e ∉ es₂ :=
  ⟨_, _, _, _, _, _, exec_of_run (r := (_, _)) (ls := [(.ctorLock .unique 1, .yes), (.ctorDefer .upgrade 2, .yes)]) rfl, by unfold Sees; rfl, rfl, by simp,
    by unfold Sees; rfl, rfl, by simp⟩

/-- **C53.**  In every history, what `owns_lock()` returns is whether the object accounts for an ownership of a mutex, namely
of the one `mutex()` returns; neither call changes anything. -/
theorem C53_observers {tr : List Ev} {s s' : St} {i : Nat} {a : Ans} {es : List Ev} (h : Exec step [] tr s) :
    (step s (.ownsLock i, a) = some (s', es) →
      s' = s ∧ ∃ r, es = [.retBool r] ∧ (r = true ↔ ∃ k m, Sees s i k (some m) true)) ∧
    (step s (.mutex i, a) = some (s', es) →
      s' = s ∧ ∃ x, es = [.retMutex x] ∧ ∃ k b, Sees s i k x b) := by
  have good := (inv_exec h).1
  constructor
  · intro hs
    simp only [step, onObj] at hs
    split at hs
    · next l hi =>
      cases hs
      refine ⟨set_self hi, l.owns, rfl, fun ho => ?_, ?_⟩
      · obtain ⟨m, hm⟩ := Option.ne_none_iff_exists'.mp (good i l hi ho)
        refine ⟨l.kind, m, ?_⟩
        rw [Sees, hi, ← hm, ← ho]
      · rintro ⟨k, m, hk⟩
        rw [Sees, hi] at hk
        cases hk
        rfl
    · cases hs
  · intro hs
    simp only [step, onObj] at hs
    split at hs
    · next l hi => cases hs; exact ⟨set_self hi, l.mutex, rfl, l.kind, l.owns, hi⟩
    · cases hs

/-- **C53.**  `release` returns the mutex and leaves an empty object; nothing is unlocked. -/
theorem C53_release_result {s s' : St} {i : Nat} {a : Ans} {es : List Ev} {k : Kind} {x : Option Nat} {b : Bool}
    (hi : Sees s i k x b) (hs : step s (.release i, a) = some (s', es)) :
    Sees s' i k none false ∧ Ev.retMutex x ∈ es ∧ (∀ y, Ev.retMutex y ∈ es → y = x) ∧ ∀ k' m, Ev.released k' m ∉ es := by
  have hi' : s[i]? = _ := hi
  simp only [step, onObj, hi', Option.some.injEq, Prod.mk.injEq] at hs
  obtain ⟨rfl, rfl⟩ := hs
  refine ⟨sees_set hi, by simp, ?_, ?_⟩
  · intro y hy
    split at hy <;> simp at hy <;> exact hy
  · intro k' m hm
    split at hm <;> simp at hm

/-- **C53.**  `swap` and move assignment exchange the contents of the two objects. -/
theorem C53_swap_result {s s' : St} {i j : Nat} {op : Op} {a : Ans} {es : List Ev} {k k' : Kind} {x x' : Option Nat} {b b' : Bool}
    (hop : op = .swap i j ∨ op = .moveAssign i j) (hi : Sees s i k x b) (hj : Sees s j k' x' b')
    (hs : step s (op, a) = some (s', es)) : k = k' ∧ Sees s' i k x' b' ∧ Sees s' j k x b ∧ es = [] := by
  have key : swapObjs s i j = some (s', es) := by rcases hop with rfl | rfl <;> exact hs
  have hi' : s[i]? = _ := hi
  have hj' : s[j]? = _ := hj
  simp only [swapObjs, hi', hj'] at key
  split at key
  · next hk =>
    cases hk
    cases key
    by_cases hij : i = j
    · subst hij
      have : some (some (Lock.mk k x b)) = some (some (Lock.mk k x' b')) := hi'.symm.trans hj'
      cases this
      have := sees_set (l := ⟨k, x, b⟩) hi
      refine ⟨rfl, ?_, ?_, rfl⟩ <;> simpa [Sees] using this
    · refine ⟨rfl, ?_, ?_, rfl⟩
      · rw [Sees, get_set_ne (Ne.symm hij)]; exact sees_set hi
      · exact get_set_self (a := some ⟨k, x', b'⟩) (by rw [get_set_ne hij]; exact hj')
  · cases key

/-- **C53.**  The move constructor: the new object has what the source had, the source is empty. -/
theorem C53_move_result {s s' : St} {j : Nat} {a : Ans} {es : List Ev} {k : Kind} {x : Option Nat} {b : Bool}
    (hj : Sees s j k x b) (hs : step s (.ctorMove j, a) = some (s', es)) :
    s'.length = s.length + 1 ∧ Sees s' s.length k x b ∧ Sees s' j k none false ∧ es = [] := by
  have hj' : s[j]? = _ := hj
  simp only [step, hj', Option.some.injEq, Prod.mk.injEq] at hs
  obtain ⟨rfl, rfl⟩ := hs
  obtain ⟨hlt, _⟩ := List.getElem?_eq_some_iff.mp hj'
  refine ⟨by simp, ?_, ?_, rfl⟩
  · simp [Sees]
  · rw [Sees, List.getElem?_append_left (by simpa using hlt)]
    exact sees_set hj

example : ∃ tr s s' es, Exec step [] tr s ∧ Sees s 1 .shared (some 2) true ∧ step s (.ctorMove 1, .yes) = some (s', es) :=
  ⟨_, _, _, _, exec_of_run (r := (_, _)) (ls := [(.ctorLock .unique 1, .yes), (.ctorLock .shared 2, .yes)]) rfl, by unfold Sees; rfl, rfl⟩

/-- **C53.**  Constructors from a mutex that do not throw: the new object refers to the mutex; it owns it after plain locking,
after an attempt iff that succeeded, with `adopt_lock` always and with `defer_lock` never; the mutex is locked only if the
object owns it and did not adopt it. -/
theorem C53_ctor_result {s s' : St} {op : Op} {a : Ans} {es : List Ev} {k : Kind} {m : Nat}
    (hop : op ∈ [Op.ctorLock k m, .ctorTry k m, .ctorTimed k m, .ctorAdopt k m, .ctorDefer k m])
    (hs : step s (op, a) = some (s', es)) (hr : ∀ e, Ev.threw e ∉ es) :
    ∃ b, s' = s ++ [some ⟨k, some m, b⟩] ∧
      (op = .ctorLock k m → b = true) ∧ (op = .ctorAdopt k m → b = true) ∧ (op = .ctorDefer k m → b = false) ∧
      ((b = true ∧ op ≠ .ctorAdopt k m) ↔ Ev.acquired k m ∈ es) := by
  simp only [List.mem_cons, List.not_mem_nil, or_false] at hop
  rcases hop with rfl | rfl | rfl | rfl | rfl
  · cases a <;> simp [step, constructed, doLock] at hs
    · obtain ⟨rfl, rfl⟩ := hs; exact ⟨true, by simp⟩
    · obtain ⟨rfl, rfl⟩ := hs; simp at hr
  · cases a <;> simp [step, constructed, doTry] at hs
    · obtain ⟨rfl, rfl⟩ := hs; exact ⟨true, by simp⟩
    · obtain ⟨rfl, rfl⟩ := hs; exact ⟨false, by simp⟩
    · obtain ⟨rfl, rfl⟩ := hs; simp at hr
  · cases a <;> simp [step, constructed, doTry] at hs
    · obtain ⟨rfl, rfl⟩ := hs; exact ⟨true, by simp⟩
    · obtain ⟨rfl, rfl⟩ := hs; exact ⟨false, by simp⟩
    · obtain ⟨rfl, rfl⟩ := hs; simp at hr
  · cases hs; exact ⟨true, by simp⟩
  · cases hs; exact ⟨false, by simp⟩

/-- A history in which each of the operations above is met: an attempt that fails and one that succeeds, a look at both
objects, a swap, a release. -/
example : ∃ tr s s₁ s₂ s₃ es₁ es₂ es₃, Exec step [] tr s ∧ Sees s 1 .unique (some 2) false ∧
    step s (.tryLock 1, .yes) = some (s₁, es₁) ∧ Ev.retBool true ∈ es₁ ∧ Sees s₁ 0 .unique (some 1) true ∧
    step s₁ (.swap 0 1, .yes) = some (s₂, es₂) ∧ Sees s₂ 0 .unique (some 2) true ∧
    step s₂ (.release 0, .yes) = some (s₃, es₃) ∧ Ev.retMutex (some 2) ∈ es₃ :=
  ⟨_, _, _, _, _, _, _, _, exec_of_run (ls := [(.ctorLock .unique 1, .yes), (.ctorTry .unique 2, .no)]) rfl,
    by unfold Sees; rfl, rfl, by simp, by unfold Sees; rfl, rfl, by unfold Sees; rfl, rfl, by simp⟩

end Verif.Locks
