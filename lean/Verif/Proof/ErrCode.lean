import Verif.Spec.ErrCode

/-! Lemmas about the construction of exceptions. -/

namespace Verif.ErrCode

/-- What is constructed has the class asked for and the argument converted to `int`. -/
theorem construct_some {ns : Ns} {p : Platform} {cls : Cls} {a : Arg} {e : Exn} (h : construct ns p cls a = some e) : e = ⟨cls, a.toInt p⟩ := by
  unfold construct at h
  split at h
  · simp at h
  · split at h
    · simpa using h.symm
    · split at h
      · simp at h
      · simpa using h.symm

theorem tells (p : Platform) (cls : Cls) (a : Arg) : Tells p ⟨cls, a.toInt p⟩ a := by
  cases a
  · rfl
  · simp [Tells, Exn.nativeError, Arg.toInt]
  · rfl

/-- Whether an exception can be constructed depends on the type of the argument only. -/
theorem construct_ty (ns : Ns) (p q : Platform) (cls : Cls) {a b : Arg} (h : a.ty = b.ty) : (construct ns p cls a).isSome = (construct ns q cls b).isSome := by
  unfold construct
  rw [h]
  repeat' split
  all_goals rfl

end Verif.ErrCode
