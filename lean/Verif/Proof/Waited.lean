import Verif.Proof.Outcome

/-! C94: how long timed waits wait, and what the results of the functions without an object of their own mean. -/

namespace Verif.Failures.Trace

open Verif.OsCall Verif.Spec.Failures Verif.Spec.Outcome

/-! Time. -/

def elapse (g : Nat) (c : Call) : Nat := g + inVain c

theorem foldl_elapse (l : List Call) (g : Nat) : l.foldl elapse g = g + (l.map inVain).sum := by
  induction l generalizing g with
  | nil => simp
  | cons c l ih => simp [ih, elapse, Nat.add_assoc]

/-- `false` is returned only after `t` milliseconds. -/
def Patient (D : Call → Prop) (t : Int) (m : M Bool) : Prop := ∀ e g, W D elapse g e m (fun o g' => o = .ret false → g + t ≤ g')

theorem waited_of_patient {bug : Bool} {extra : Call → Prop} {t : Int} {m : M Bool}
    (h : Patient (fun c => Documented bug c ∧ extra c) t m) : Fulfils bug extra (Waited t) m := by
  intro e as hd
  have := h e 0 as hd
  rw [foldl_elapse] at this
  cases ho : (m e as).out with
  | ret b =>
    cases b
    · have := this ho
      simp only [Waited]
      omega
    · trivial
  | _ => trivial

section
variable {α β σ : Type} {D : Call → Prop} {t : Int}

theorem w_later {m : M α} {e : UInt32} {g : Nat} : W D elapse g e m (fun _ g' => g ≤ g') := by
  intro as hd
  rw [foldl_elapse]
  omega

theorem patient_bind {m : M α} {f : α → M Bool} (hf : ∀ a, Patient D t (f a)) : Patient D t (m >>= f) := by
  intro e g
  refine w_bind (w_mono w_later (fun o g' hg => ?_))
  cases o with
  | ret a => exact fun e' => w_mono (hf a e' g') (fun o g'' h ho => by have := h ho; omega)
  | _ => intro h; cases h

theorem patient_bind' {m : M Bool} {f : Bool → M Bool} (hm : Patient D t m) (hf : Patient D t (f true)) : Patient D t (m >>= f) := by
  intro e g
  refine w_bind (fun as hd => ?_)
  have h1 := hm e g as hd
  have h2 := w_later (D := D) (m := m) (e := e) (g := g) as hd
  revert h1 h2
  generalize ((m e as).log.foldl elapse g) = g'
  cases (m e as).out with
  | ret a =>
    intro h1 h2
    cases a
    · exact fun e' => w_mono w_later (fun o g'' h _ => by have := h1 rfl; omega)
    · exact fun e' => w_mono (hf e' g') (fun o g'' h ho => by have := h ho; omega)
  | _ => intro _ _ h; cases h

theorem patient_true : Patient D t (pure true) := fun _ _ => w_pure (by simp)

theorem patient_guarded {m : M Bool} {dt : M Unit} (hm : Patient D t m) : Patient D t (guarded m dt) := by
  intro e g
  refine w_guarded (w_mono (hm e g) (fun o g' h => ?_))
  cases o with
  | ret a => exact fun e' => w_mono w_later (fun o g'' hg => by cases o <;> simp_all [next]; intro ha; have := h ha; omega)
  | threw x => exact fun e' as hd => by cases (dt e' as).out <;> simp
  | _ => simp

theorem patient_rethrowing {m : M Bool} {dt : M Unit} (hm : Patient D t m) : Patient D t (rethrowing m dt) := by
  intro e g
  refine w_rethrowing (w_mono (hm e g) (fun o b' h => ?_))
  cases o with
  | ret a => exact h
  | threw x => exact fun e' as hd => by cases (dt e' as).out <;> simp [next]
  | _ => simp

/-- The loop over the chunks: a round that goes on has waited for what is not left any more. -/
theorem patient_chunks {obj : Obj} {body : Int → Ans → M (Int ⊕ Bool)}
    (h : ∀ left a e g, D ⟨.waitFor obj (chunk left), a⟩ → left ≤ t → W D elapse g e (body left a) (fun o _ => ∀ x, o = .ret x →
      match x with
      | .inl left' => left' ≤ t ∧ left ≤ left' + (inVain ⟨.waitFor obj (chunk left), a⟩ : Nat)
      | .inr false => left ≤ (inVain ⟨.waitFor obj (chunk left), a⟩ : Nat)
      | .inr true => True)) :
    Patient D t (loop (fun left => .waitFor obj (chunk left)) body t) := by
  intro e g
  refine w_loop (fun left g' => left ≤ t ∧ g + t ≤ g' + left) ⟨Int.le_refl _, Int.le_refl _⟩ (fun _ _ _ h => by cases h) (fun left g' a hi hd => ?_)
  refine fun as hd' => ?_
  have h1 := h left a a.err (elapse g' ⟨.waitFor obj (chunk left), a⟩) hd hi.1 as hd'
  have h2 := w_later (D := D) (m := body left a) (e := a.err) (g := elapse g' ⟨.waitFor obj (chunk left), a⟩) as hd'
  revert h1 h2
  generalize (List.foldl elapse (elapse g' ⟨.waitFor obj (chunk left), a⟩) ((body left a a.err as).log)) = g''
  cases (body left a a.err as).out with
  | ret x =>
    intro h1 h2
    have h1 := h1 x rfl
    have hi := hi.2
    simp only [elapse] at h2
    cases x with
    | inl l => simp only [next] at h1 ⊢; omega
    | inr b => cases b <;> simp_all [next]; omega
  | _ => intro _ _ h; cases h

theorem inVain_timeout {obj : Obj} {left : Int} {a : Ans} (ha : a.res = waitTimeout) :
    inVain ⟨.waitFor obj (chunk left), a⟩ = (chunk left).toNat := by
  have : chunk left ≠ 0xFFFFFFFF := by
    unfold chunk maxNonInfiniteWait
    split
    · decide
    · rename_i h
      intro h2
      have h3 := congrArg UInt32.toNat h2
      simp only [UInt32.toNat_ofNat'] at h3
      have h4 : UInt32.toNat 0xFFFFFFFE = 4294967294 := rfl
      have h5 : UInt32.toNat 0xFFFFFFFF = 4294967295 := rfl
      rw [h4] at h
      rw [h5] at h3
      omega
  simp [inVain, ha, waitTimeout, this]

theorem patient_mono {s : Int} {m : M Bool} (h : Patient D t m) (hs : s ≤ t) : Patient D s m :=
  fun e g => w_mono (h e g) (fun o g' h ho => by have := h ho; omega)

end

section
variable (D : Call → Prop) (t : Int)

theorem patient_eventTimedRel : Patient D t (eventTimedRel t) := by
  unfold eventTimedRel
  refine patient_mono (t := if t < 0 then 0 else t) (patient_chunks (fun left a e g hd hl => ?_)) (by split <;> omega)
  split
  · exact w_pure (by simp)
  · split
    · rename_i h
      refine w_pure (fun x hx => ?_)
      rw [inVain_timeout h]
      cases hx
      by_cases hp : left - ((chunk left).toNat : Int) > 0
      · simp only [if_pos hp]; omega
      · simp only [if_neg hp]; omega
    · exact w_err_bind (w_throw (by simp))

theorem patient_wsemTimedRel : Patient D t (wsemTimedRel t) := by
  unfold wsemTimedRel
  refine patient_mono (t := if t < 0 then 0 else t) (patient_chunks (fun left a e g hd hl => ?_)) (by split <;> omega)
  split
  · exact w_pure (by simp)
  · split
    · rename_i h
      refine w_pure (fun x hx => ?_)
      rw [inVain_timeout h]
      cases hx
      by_cases hp : left - ((chunk left).toNat : Int) > 0
      · simp only [if_pos hp]; omega
      · simp only [if_neg hp]; omega
    · exact w_err_bind (w_throw (by simp))

theorem patient_wmutexWaitRel : Patient D t (wmutexWaitRel t) := by
  unfold wmutexWaitRel
  split
  · refine patient_chunks (fun left a e g hd hl => ?_)
    split
    · rename_i h
      refine w_bind (fun as hd => ?_)
      cases (stillLocked e as).out with
      | ret b =>
        refine fun e' => w_pure (fun x hx => ?_)
        cases hx
        cases b <;> simp [hl, inVain, h]
      | _ => simp [next]
    · split
      · rename_i h
        refine w_pure (fun x hx => ?_)
        rw [inVain_timeout h]
        cases hx
        by_cases hp : left - ((chunk left).toNat : Int) > 0
        · simp only [if_pos hp]; omega
        · simp only [if_neg hp]; omega
      · exact w_err_bind (w_throw (by simp))
  · exact fun e g => w_pure (fun _ => by omega)

theorem patient_wcvWaitRel : Patient D t (wcvWaitRel t) := by
  unfold wcvWaitRel
  split
  · refine patient_chunks (fun left a e g hd hl => ?_)
    split
    · rename_i h
      refine w_bind (fun as hd => ?_)
      cases (withInternal (sys .mem) e as).out with
      | ret b =>
        refine fun e' => w_pure (fun x hx => ?_)
        cases hx
        by_cases hb : b.res > 0 <;> simp [hb, hl, inVain, h]
      | _ => simp [next]
    · split
      · rename_i h
        refine w_pure (fun x hx => ?_)
        rw [inVain_timeout h]
        cases hx
        by_cases hp : left - ((chunk left).toNat : Int) > 0
        · simp only [if_pos hp]; omega
        · simp only [if_neg hp]; omega
      · unfold waitFailure
        refine w_err_bind (w_bind (fun as hd => ?_))
        cases (withInternal (do let _ ← sys .mem) e as).out with
        | ret b => exact fun e' => w_throw (by simp)
        | _ => simp [next]
  · exact fun e g => w_pure (fun _ => by omega)

theorem patient_wmutexTimedLock : Patient D t (wmutexTimedLock (wmutexPrivTimedRel t)) := by
  unfold wmutexTimedLock wmutexPrivTimedRel
  refine patient_bind (fun b => ?_)
  split
  · exact patient_true
  refine patient_bind (fun _ => patient_bind (fun w => ?_))
  split
  · exact patient_true
  · refine patient_rethrowing ?_
    unfold wmutexTryRel
    exact patient_bind (fun _ => patient_bind' (patient_wmutexWaitRel D t) patient_true)

theorem patient_wcvTimedRel : Patient D t (wcvTimedRel t) := by
  unfold wcvTimedRel wcvWaiting
  refine patient_bind (fun _ => patient_bind (fun _ => patient_guarded ?_))
  unfold wcvPrivTimedRel
  exact patient_bind' (patient_wcvWaitRel D t) patient_true

end

/-! Values that have been read. -/

def recall (g : Option UInt32) (c : Call) : Option UInt32 := if c.api == .mem then some c.ans.res else g

theorem foldl_recall (l : List Call) (g : Option UInt32) : l.foldl recall g = (lastRead l).or g := by
  induction l generalizing g with
  | nil => simp [lastRead]
  | cons c l ih =>
    rw [List.foldl_cons, ih]
    simp only [lastRead, List.reverse_cons, List.find?_append, recall]
    cases h : List.find? (fun c => c.api == .mem) l.reverse with
    | some x => simp
    | none => cases hc : c.api == .mem <;> simp [hc]

/-- The result is what the last value read says. -/
def Tells {α : Type} (D : Call → Prop) (P : α → UInt32 → Prop) (m : M α) : Prop :=
  ∀ e g, W D recall g e m (fun o g' => ∀ a, o = .ret a → ∃ v, g' = some v ∧ P a v)

theorem says_of_tells {α : Type} {bug : Bool} {extra : Call → Prop} {P : α → UInt32 → Prop} {m : M α}
    (h : Tells (fun c => Documented bug c ∧ extra c) P m) : Fulfils bug extra (Says P) m := by
  intro e as hd
  have := h e none as hd
  rw [foldl_recall] at this
  cases ho : (m e as).out with
  | ret b => obtain ⟨v, h1, h2⟩ := this b ho; exact ⟨v, by simpa using h1, h2⟩
  | _ => trivial

section
variable {α β σ : Type} {D : Call → Prop} {P : α → UInt32 → Prop}

theorem tells_bind {m : M β} {f : β → M α} (hf : ∀ a, Tells D P (f a)) : Tells D P (m >>= f) := by
  intro e g
  refine w_bind (fun as hd => ?_)
  cases (m e as).out with
  | ret a => exact fun e' => hf a e' _
  | _ => intro a h; cases h

theorem tells_rethrowing {m : M α} {dt : M Unit} (hm : Tells D P m) : Tells D P (rethrowing m dt) := by
  intro e g
  refine w_rethrowing (w_mono (hm e g) (fun o b' h => ?_))
  cases o with
  | ret a => exact h
  | threw x => exact fun e' as hd => by cases (dt e' as).out <;> simp [next]
  | _ => simp

theorem tells_guarded {m : M α} {dt : M Unit} (hm : Tells D P m) (hdt : ∀ e g, W D recall g e dt (fun _ g' => g' = g)) : Tells D P (guarded m dt) := by
  intro e g
  refine w_guarded (w_mono (hm e g) (fun o g' h => ?_))
  cases o with
  | ret a =>
    refine fun e' => w_mono (hdt e' g') (fun o g'' hg => ?_)
    subst hg
    cases o with
    | ret _ => exact h
    | _ => intro _ h; cases h
  | threw x => exact fun e' as hd => by cases (dt e' as).out <;> simp
  | _ => simp

theorem tells_loop {api : σ → Api} {body : σ → Ans → M (σ ⊕ α)} {s : σ}
    (h : ∀ s a g, D ⟨api s, a⟩ → W D recall (recall g ⟨api s, a⟩) a.err (body s a) (fun o g' => ∀ a, o = .ret (.inr a) → ∃ v, g' = some v ∧ P a v)) :
    Tells D P (loop api body s) := by
  intro e b
  refine w_loop (fun _ _ => True) trivial (by simp) (fun s b a _ hd => w_mono (h s a b hd) (fun o b' h => ?_))
  cases o with
  | ret x => cases x <;> simp_all [next]
  | _ => simp [next]

end

section
variable (c : Cfg) (D : Call → Prop)

theorem silent_pthread_unlock (e : UInt32) (g : Option UInt32) :
    W D recall g e (noexcept do let r ← pthread c .pthread_mutex_unlock; verify c.debug (r == 0)) (fun _ g' => g' = g) := by
  refine w_noexcept (w_pthread_bind rfl (fun _ _ => rfl) (fun r hr hr' e' => ?_))
  exact w_verify (fun _ _ => rfl) (fun _ => rfl)

theorem silent_mutexUnlock (e : UInt32) (g : Option UInt32) : W D recall g e (noexcept (mutexUnlock c)) (fun _ g' => g' = g) := by
  unfold mutexUnlock
  refine w_noexcept (w_mono (silent_pthread_unlock c D e g) (fun o g' h => ?_))
  cases o <;> exact h

theorem tells_emuTryWait : Tells D (fun b v => b = (v != 0)) (emuTryWait c) := by
  unfold emuTryWait emuGuard
  refine tells_bind (fun _ => tells_guarded ?_ (silent_mutexUnlock c D))
  exact fun e g => w_sys_bind (by simp) (fun r _ => w_pure (by simp [recall]))

theorem tells_emuWait : Tells D (fun _ v => v ≠ 0) (emuWait c) := by
  unfold emuWait emuGuard
  refine tells_bind (fun _ => tells_guarded (tells_loop (fun s a g hd => ?_)) (silent_mutexUnlock c D))
  split
  · refine w_bind (fun as hd => ?_)
    cases (condWait c a.err as).out with
    | ret x => exact fun e' => w_pure (by simp)
    | _ => simp [next]
  · rename_i h
    exact w_pure (by simp [recall, h])

theorem tells_emuTimedWait : Tells D (fun b v => b = (v != 0)) (emuTimedWait c) := by
  unfold emuTimedWait emuGuard
  refine tells_bind (fun _ => tells_guarded (tells_loop (fun s a g hd => ?_)) (silent_mutexUnlock c D))
  split
  · refine w_bind (fun as hd => ?_)
    cases (condTimedWait c a.err as).out with
    | ret x =>
      intro e'
      cases x
      · exact w_sys_bind (by simp) (fun r _ => w_pure (by simp [recall]))
      · exact w_pure (by simp)
    | _ => simp [next]
  · rename_i h
    exact w_pure (by simp [recall, h])

theorem tells_timedMutexLock (ht : c.timedlock = false) : Tells D (fun _ v => v = 0) (timedMutexLock c) := by
  unfold timedMutexLock
  rw [if_neg (by simp [ht])]
  unfold pthreadGuard
  refine tells_bind (fun _ => tells_guarded (tells_loop (fun s a g hd => ?_)) (silent_pthread_unlock c D))
  split
  · refine w_bind (fun as hd => ?_)
    cases (pthread c (.pthread_cond_wait .mutex) a.err as).out with
    | ret x => exact fun e' => w_verify_bind (by simp) (fun _ => w_pure (by simp))
    | _ => simp [next]
  · rename_i h
    exact w_pure (by simp [recall]; simpa using h)

theorem tells_timedMutexTryLock (ht : c.timedlock = false) : Tells D (fun b v => b = (v == 0)) (timedMutexTryLock c) := by
  unfold timedMutexTryLock
  rw [if_neg (by simp [ht])]
  unfold pthreadGuard
  refine tells_bind (fun _ => tells_guarded ?_ (silent_pthread_unlock c D))
  exact fun e g => w_sys_bind (by simp) (fun r _ => w_pure (by simp [recall]))

theorem tells_timedMutexTimedLock (ht : c.timedlock = false) : Tells D (fun b v => b = (v == 0)) (timedMutexTimedLock c) := by
  unfold timedMutexTimedLock
  rw [if_neg (by simp [ht])]
  unfold pthreadGuard
  refine tells_bind (fun _ => tells_guarded (tells_loop (fun s a g hd => ?_)) (silent_pthread_unlock c D))
  split
  · refine w_bind (fun as hd => ?_)
    cases (pthread c (.pthread_cond_timedwait .mutex) a.err as).out with
    | ret x =>
      intro e'
      split
      · exact w_sys_bind (by simp) (fun r _ => w_pure (by simp [recall]))
      · split
        · exact w_throw (by simp)
        · exact w_pure (by simp)
    | _ => simp [next]
  · rename_i h
    exact w_pure (by simp [recall]; simpa using h)

/-- basic_mutex_windows.hpp 128-153: the result is what has just been read. -/
theorem w_stillLocked {β : Type} {f : Bool → M β} {Q : Out β → Option UInt32 → Prop} {e : UInt32} {g : Option UInt32} (h0 : ∀ g, Q .pending g)
    (h : ∀ e' v, W D recall (some v) e' (f (v &&& lockFlag != 0)) Q) : W D recall g e (stillLocked >>= f) Q := by
  refine w_bind ?_
  unfold stillLocked
  exact w_sys_bind (h0 _) (fun r _ => w_pure (fun e' => h e' r.res))

theorem tells_wmutexTryLock : Tells D (fun b v => b = (v &&& 0x80000000 == 0)) wmutexTryLock := by
  unfold wmutexTryLock
  exact fun e g => w_sys_bind (by simp) (fun r _ => w_pure (by simp [recall, lockFlag]))

theorem tells_wmutexPrivLock : Tells D (fun _ v => v &&& 0x80000000 = 0) wmutexPrivLock := by
  unfold wmutexPrivLock
  refine tells_bind (fun _ => fun e g => w_stillLocked D (by simp) (fun e' v => ?_))
  split
  · refine tells_rethrowing (tells_bind (fun _ => tells_loop (fun s a g hd => ?_))) e' _
    split
    · exact w_err_bind (w_throw_bind (by simp))
    · dsimp only
      refine w_stillLocked D (by simp) (fun e' v => w_pure (fun _ h => ?_))
      by_cases hv : v &&& lockFlag = 0
      · exact ⟨v, rfl, hv⟩
      · simp [hv] at h
  · rename_i h
    exact w_pure (by simpa [lockFlag] using h)

theorem tells_wmutexLock : Tells D (fun _ v => v &&& 0x80000000 = 0) wmutexLock := by
  unfold wmutexLock
  intro e g
  refine w_bind (w_mono (tells_wmutexTryLock D e g) (fun o g' h => ?_))
  cases o with
  | ret b =>
    intro e'
    obtain ⟨v, rfl, h⟩ := h b rfl
    cases b
    · exact tells_wmutexPrivLock D e' _
    · exact w_pure (fun _ _ => ⟨v, rfl, by simpa using h⟩)
  | _ => intro _ h; cases h

theorem tells_wmutexWaitAbs : Tells D (fun b v => b = true → v &&& 0x80000000 = 0) wmutexWaitAbs := by
  unfold wmutexWaitAbs
  refine tells_loop (fun s a g hd => ?_)
  try dsimp only
  split
  · exact w_err_bind (w_throw_bind (by simp))
  · split
    · refine w_stillLocked D (by simp) (fun e' v => w_pure (fun b h => ?_))
      by_cases hv : v &&& lockFlag = 0
      · exact ⟨v, rfl, fun _ => hv⟩
      · simp [hv] at h
    · split
      · exact w_sys_bind (by simp) (fun r _ => w_pure (fun b h => ⟨r.res, rfl, by cases h; simp⟩))
      · exact w_verify_bind (by simp) (fun h => by simp at h)

theorem tells_wmutexPrivTimedAbs : Tells D (fun b v => b = true → v &&& 0x80000000 = 0) wmutexPrivTimedAbs := by
  unfold wmutexPrivTimedAbs
  refine tells_bind (fun _ => fun e g => w_stillLocked D (by simp) (fun e' v => ?_))
  split
  · rename_i h
    exact w_pure (fun b hb => ⟨v, rfl, fun _ => by simpa [lockFlag] using h⟩)
  · refine tells_rethrowing ?_ e' _
    unfold wmutexTryAbs
    refine tells_bind (fun _ => tells_bind (fun _ => tells_bind (fun r => ?_)))
    dsimp only
    split
    · exact tells_bind (fun _ => tells_bind (fun _ => tells_wmutexWaitAbs D))
    · exact tells_wmutexWaitAbs D

theorem tells_wmutexTryRel (t : Int) : Tells D (fun b v => b = true → v &&& 0x80000000 = 0) (wmutexTryRel t) := by
  unfold wmutexTryRel
  refine tells_bind (fun _ => ?_)
  intro e g
  have h : W D recall g e (wmutexWaitRel t) (fun o g' => o = .ret true → ∃ v, g' = some v ∧ v &&& 0x80000000 = 0) := by
    unfold wmutexWaitRel
    split
    · refine w_loop (fun _ _ => True) trivial (by simp) (fun left g a _ _ => ?_)
      split
      · refine w_stillLocked D (by simp [next]) (fun e' v => w_pure ?_)
        by_cases hv : v &&& lockFlag = 0
        · simp only [next, hv]; exact fun _ => ⟨v, rfl, hv⟩
        · simp [next, hv]
      · split
        · refine w_pure ?_
          by_cases hp : left - ((chunk left).toNat : Int) > 0
          · simp only [next, if_pos hp]
          · simp only [next, if_neg hp]; intro h; cases h
        · exact w_err_bind (w_throw (by simp [next]))
    · exact w_pure (by simp)
  refine w_bind (w_mono h (fun o g' h => ?_))
  cases o with
  | ret b =>
    intro e'
    cases b
    · exact w_sys_bind (by simp) (fun r _ => w_pure (fun b h => ⟨r.res, rfl, by cases h; simp⟩))
    · obtain ⟨v, rfl, hv⟩ := h rfl
      exact w_pure (fun _ _ => ⟨v, rfl, fun _ => hv⟩)
  | _ => intro _ h; cases h

theorem tells_wmutexPrivTimedRel (t : Int) : Tells D (fun b v => b = true → v &&& 0x80000000 = 0) (wmutexPrivTimedRel t) := by
  unfold wmutexPrivTimedRel
  refine tells_bind (fun _ => fun e g => w_stillLocked D (by simp) (fun e' v => ?_))
  split
  · rename_i h
    exact w_pure (fun b hb => ⟨v, rfl, fun _ => by simpa [lockFlag] using h⟩)
  · exact tells_rethrowing (tells_wmutexTryRel D t) e' _

theorem tells_wmutexTimedLock {m : M Bool} (hm : Tells D (fun b v => b = true → v &&& 0x80000000 = 0) m) :
    Tells D (fun b v => b = true → v &&& 0x80000000 = 0) (wmutexTimedLock m) := by
  unfold wmutexTimedLock
  intro e g
  refine w_bind (w_mono (tells_wmutexTryLock D e g) (fun o g' h => ?_))
  cases o with
  | ret b =>
    intro e'
    obtain ⟨v, rfl, h⟩ := h b rfl
    cases b
    · exact hm e' _
    · exact w_pure (fun _ _ => ⟨v, rfl, fun _ => by simpa using h⟩)
  | _ => intro _ h; cases h

end

end Verif.Failures.Trace
