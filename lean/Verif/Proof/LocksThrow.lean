import Verif.Spec.LocksThrow
import Verif.Proof.Locks

/-! # Lemmas for destructors that cannot unlock (C121) -/

namespace Verif.LocksThrow

open Verif.Locks (Lock Kind Ans Ev Op St net)

/-- The trace as it would be if the unlocking functions had not thrown. -/
def asIf (tr : List DEv) : List Ev := tr.filterMap fun | .call e => some e | .unlockThrew k m => some (.released k m) | .terminated => none

theorem asIf_append (a b : List DEv) : asIf (a ++ b) = asIf a ++ asIf b := List.filterMap_append

theorem asIf_call (es : List Ev) : asIf (es.map .call) = es := by
  induction es with
  | nil => rfl
  | cons e es ih => simpa [asIf] using ih

theorem destroyedBy_asIf {std : Std} {th unw : Bool} {l : Lock} {es : List DEv} (h : destroyedBy std th unw l = some es) : asIf es = Locks.destroyed l := by
  unfold destroyedBy at h
  unfold Locks.destroyed
  split at h
  · next ho =>
    rw [if_pos ho]
    split at h
    · next hm => cases h; simp [hm, asIf]
    · next m hm =>
      simp only [hm]
      repeat' split at h
      all_goals first | (cases h; simp [asIf]) | cases h
  · next ho => cases h; rw [if_neg ho]; rfl

/-- A step that does not end the process is a step of the lock objects. -/
theorem step_sim {std : Std} {s s' : St} {c : Call} {es : List DEv} (h : step std (.running s) c = some (.running s', es)) :
    Locks.step s (c.op, c.ans) = some (s', asIf es) := by
  obtain ⟨op, a, th, unw⟩ := c
  cases op
  case destroy i =>
    simp only [step] at h
    split at h
    · next l hl =>
      split at h
      · cases h
      · next es' hd => cases h; simp only [Locks.step, hl, destroyedBy_asIf hd]
    · cases h
  case convertAssign i j =>
    simp only [step] at h
    split at h
    · next old l hi hj =>
      split at h
      · next hc =>
        split at h
        · cases h
        · next hv => cases h; simp only [Locks.step, hi, hj, hc, hv, if_true, asIf_call]
        · next hv =>
          split at h
          · cases h
          · next hd => cases h; simp only [Locks.step, hi, hj, hc, hv, if_true, asIf_append, asIf_call, destroyedBy_asIf hd]
      · cases h
    · cases h
  all_goals
    simp only [step] at h
    split at h
    · cases h
    · next hs => cases h; simp only [asIf_call]; exact hs

/-- A process that still runs has never been terminated. -/
theorem running_pred {std : Std} {p : Proc} {c : Call} {s' : St} {es : List DEv} (h : step std p c = some (.running s', es)) : ∃ s, p = .running s := by
  cases p with
  | running s => exact ⟨s, rfl⟩
  | terminated => cases h

theorem exec_sim {std : Std} {tr : List DEv} {p : Proc} (h : Exec (step std) (.running []) tr p) : ∀ s, p = .running s → Exec Locks.step [] (asIf tr) s := by
  induction h with
  | init => intro s e; cases e; exact .init
  | snoc _ hs ih =>
    rintro s rfl
    obtain ⟨s0, rfl⟩ := running_pred hs
    rw [asIf_append]
    exact .snoc (ih _ rfl) (step_sim hs)

theorem net_asIf (k : Kind) (m : Nat) (tr : List DEv) : net k m (asIf tr) + failed k m tr = net k m (real tr) := by
  induction tr with
  | nil => rfl
  | cons e tr ih =>
    cases e with
    | call e =>
      have h1 : asIf (.call e :: tr) = [e] ++ asIf tr := rfl
      have h2 : real (.call e :: tr) = [e] ++ real tr := rfl
      have h3 : failed k m (.call e :: tr) = failed k m tr := by simp [failed]
      rw [h1, h2, h3, Locks.net_append, Locks.net_append]; omega
    | terminated =>
      have h1 : asIf (.terminated :: tr) = asIf tr := rfl
      have h2 : real (.terminated :: tr) = real tr := rfl
      have h3 : failed k m (.terminated :: tr) = failed k m tr := by simp [failed]
      rw [h1, h2, h3]; exact ih
    | unlockThrew k' m' =>
      have h1 : asIf (.unlockThrew k' m' :: tr) = [.released k' m'] ++ asIf tr := rfl
      have h2 : real (.unlockThrew k' m' :: tr) = real tr := rfl
      rw [h1, h2, Locks.net_append]
      by_cases hk : k' = k ∧ m' = m
      · obtain ⟨rfl, rfl⟩ := hk
        have h3 : failed k' m' (.unlockThrew k' m' :: tr) = failed k' m' tr + 1 := by simp [failed]
        have h4 : net k' m' [.released k' m'] = -1 := by simp [net, Locks.total, Locks.mutexNet, Locks.userNet]
        rw [h3, h4]; omega
      · have h3 : failed k m (.unlockThrew k' m' :: tr) = failed k m tr := by simp [failed, hk]
        have h4 : net k m [.released k' m'] = 0 := by simp [net, Locks.total, Locks.mutexNet, Locks.userNet, hk]
        rw [h3, h4]; omega

theorem destroyedBy_none {std : Std} {th unw : Bool} {l : Lock} : destroyedBy std th unw l = none ↔ l.owns = true ∧ l.mutex ≠ none ∧ th = true ∧ (std = .cpp11 ∨ unw = true) := by
  unfold destroyedBy
  cases l.owns <;> cases l.mutex <;> cases th <;> cases std <;> cases unw <;> simp

theorem destroyedBy_cpp11 {th unw : Bool} {l : Lock} {es : List DEv} (h : destroyedBy .cpp11 th unw l = some es) (k : Kind) (m : Nat) : .unlockThrew k m ∉ es := by
  unfold destroyedBy at h
  repeat' split at h
  all_goals first | contradiction | (cases h; simp)

end Verif.LocksThrow
