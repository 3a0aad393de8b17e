import Verif.Proof.LocksThrow
import Verif.Props.Locks

/-! C121: destructors of lock objects when the mutex cannot be unlocked. -/

namespace Verif.LocksThrow

open Verif.Locks (Lock Kind Ans Ev Op St total mutexNet userNet owners)

/-- **C121**: whatever members are called and whichever unlocking functions throw, in explicit calls or in destructors, the ownerships of a mutex that are outstanding are those
reported by live lock objects and those of objects whose destructor was left by an exception, no others and none twice. -/
theorem C121_accounting (std : Std) {tr : List DEv} {s : St} (h : Exec (step std) (.running []) tr (.running s)) (k : Kind) (m : Nat) :
    total (mutexNet k m) (real tr) + total (userNet k m) (real tr) = owners k m s + failed k m tr := by
  have e := (Locks.inv_exec (exec_sim h s rfl)).2.2 k m
  have e' := net_asIf k m tr
  unfold Locks.net at e e'
  omega

/-- **C121** (since C++11): as long as the process runs no ownership is lost. -/
theorem C121_none_lost {tr : List DEv} {s : St} (h : Exec (step .cpp11) (.running []) tr (.running s)) (k : Kind) (m : Nat) :
    total (mutexNet k m) (real tr) + total (userNet k m) (real tr) = owners k m s := by
  have hno : ∀ tr p, Exec (step .cpp11) (.running []) tr p → DEv.unlockThrew k m ∉ tr := by
    intro tr p h
    refine Exec.invariant (fun tr _ => DEv.unlockThrew k m ∉ tr) (by simp) ?_ h
    rintro tr p ⟨op, a, th, unw⟩ p' es hI hs
    have : DEv.unlockThrew k m ∉ es := by
      cases p with
      | terminated => cases hs
      | running s =>
        cases op
        case destroy i =>
          simp only [step] at hs
          split at hs
          · split at hs
            · cases hs; simp
            · next hd => cases hs; exact destroyedBy_cpp11 hd k m
          · cases hs
        case convertAssign i j =>
          simp only [step] at hs
          split at hs
          · split at hs
            · split at hs
              · cases hs
              · cases hs; simp
              · split at hs
                · cases hs; simp
                · next hd => cases hs; simp [destroyedBy_cpp11 hd k m]
            · cases hs
          · cases hs
        all_goals
          simp only [step] at hs
          split at hs
          · cases hs
          · cases hs; simp
    simp [hI, this]
  have hz : failed k m tr = 0 := by
    unfold failed
    rw [List.countP_eq_zero]
    intro e he hk
    exact hno _ _ h (by simpa using (of_decide_eq_true hk ▸ he))
  have := C121_accounting .cpp11 h k m
  omega

/-- **C121**: the process is terminated only because the destructor of a lock object that owns a mutex could not unlock it. -/
theorem C121_terminated_only {std : Std} {s : St} {c : Call} {es : List DEv} (h : step std (.running s) c = some (.terminated, es)) :
    c.dtorThrows = true ∧ (std = .cpp11 ∨ c.unwinding = true) ∧ Drops s c := by
  obtain ⟨op, a, th, unw⟩ := c
  cases op
  case destroy i =>
    simp only [step] at h
    split at h
    · next l hl =>
      split at h
      · next hd =>
        obtain ⟨h1, _, h3, h4⟩ := destroyedBy_none.1 hd
        exact ⟨h3, h4, .inl ⟨i, l, rfl, hl, h1⟩⟩
      · cases h
    · cases h
  case convertAssign i j =>
    simp only [step] at h
    split at h
    · next old l hi hj =>
      split at h
      · split at h
        · cases h
        · cases h
        · split at h
          · next hd =>
            obtain ⟨h1, _, h3, h4⟩ := destroyedBy_none.1 hd
            exact ⟨h3, .inl (h4.resolve_right nofun), .inr ⟨i, j, old, rfl, hi, h1⟩⟩
          · cases h
      · cases h
    · cases h
  all_goals
    simp only [step] at h
    split at h
    · cases h
    · cases h

/-- **C121** (since C++11): if the destructor of an owning lock object cannot unlock, the process is terminated: nothing of the program runs with the mutex locked and no owner. -/
theorem C121_terminated {tr : List DEv} {s : St} {i : Nat} {l : Lock} (h : Exec (step .cpp11) (.running []) tr (.running s)) (hi : s[i]? = some (some l)) (ho : l.owns = true)
    (a : Ans) (unw : Bool) : step .cpp11 (.running s) ⟨.destroy i, a, true, unw⟩ = some (.terminated, [.terminated]) := by
  have hm : l.mutex ≠ none := (Locks.inv_exec (exec_sim h s rfl)).1 i l hi ho
  have hd : destroyedBy .cpp11 true unw l = none := destroyedBy_none.2 ⟨ho, hm, rfl, .inl rfl⟩
  simp only [step, hi, hd]

/-- **C121** (before C++11): the exception leaves the destructor, the object is gone, and the mutex stays locked: an ownership no lock object reports is one more. -/
theorem C121_lost_before_cpp11 {tr : List DEv} {s : St} {i : Nat} {l : Lock} (h : Exec (step .cpp03) (.running []) tr (.running s)) (hi : s[i]? = some (some l)) (ho : l.owns = true)
    (a : Ans) : ∃ m, l.mutex = some m ∧ step .cpp03 (.running s) ⟨.destroy i, a, true, false⟩ = some (.running (s.set i none), [.unlockThrew l.kind m]) := by
  obtain ⟨m, hm⟩ := Option.ne_none_iff_exists'.mp ((Locks.inv_exec (exec_sim h s rfl)).1 i l hi ho)
  refine ⟨m, hm, ?_⟩
  have hd : destroyedBy .cpp03 true false l = some [.unlockThrew l.kind m] := by simp [destroyedBy, ho, hm]
  simp only [step, hi, hd]

/-- **C121**: no null pointer is dereferenced in a process that runs. -/
theorem C121_no_null_dereference (std : Std) {tr : List DEv} {s : St} (h : Exec (step std) (.running []) tr (.running s)) : .call .ub ∉ tr := fun hu =>
  Locks.C53_no_null_dereference (exec_sim h s rfl) (List.mem_filterMap.2 ⟨_, hu, rfl⟩)

/-- A lock object is destroyed before C++11 while its mutex cannot be unlocked, also by an assignment: the mutex stays locked without an owner. -/
example : ∃ tr s, Exec (step .cpp03) (.running []) tr (.running s) ∧ (∀ o ∈ s, o = none) ∧ failed .unique 0 tr = 1 ∧ total (mutexNet .unique 0) (real tr) = 1 :=
  ⟨_, _, exec_of_run (r := (_, _)) (ls := [⟨.ctorLock .unique 0, .yes, false, false⟩, ⟨.destroy 0, .yes, true, false⟩]) rfl, by decide, by decide, by decide⟩

example : ∃ tr s, Exec (step .cpp03) (.running []) tr (.running s) ∧ owners .unique 0 s = 0 ∧ owners .unique 1 s = 1 ∧ failed .unique 0 tr = 1 :=
  ⟨_, _, exec_of_run (r := (_, _)) (ls := [⟨.ctorLock .unique 0, .yes, false, false⟩, ⟨.ctorLock .upgrade 1, .yes, false, false⟩, ⟨.convertAssign 0 1, .yes, true, false⟩]) rfl,
    by decide, by decide, by decide⟩

/-- The hypotheses of the theorems for C++11 can be met: two objects own mutexes, an explicit `unlock` has thrown, and the destructor of the second terminates the process. -/
example : ∃ tr s, Exec (step .cpp11) (.running []) tr (.running s) ∧ s[1]? = some (some ⟨.shared, some 1, true⟩) ∧ owners .unique 0 s = 1 ∧
    step .cpp11 (.running s) ⟨.destroy 1, .yes, true, false⟩ = some (.terminated, [.terminated]) :=
  ⟨_, _, exec_of_run (r := (_, _)) (ls := [⟨.ctorLock .unique 0, .yes, false, false⟩, ⟨.ctorTry .shared 1, .yes, false, false⟩, ⟨.unlock 0, .throws, false, false⟩]) rfl,
    by decide, by decide, by decide⟩

end Verif.LocksThrow
