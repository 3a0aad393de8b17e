import Verif.Proof.TraceRules
import Verif.Spec.Outcome

/-! C94 and C95 for the functions of `Verif.Model.Failures`. -/

namespace Verif.Failures.Trace

open Verif.OsCall Verif.Spec.Failures Verif.Spec.Outcome

/-! ## C94 -/

/-- How often the object has been acquired, and whether the system has said `why`. -/
def gain (why : Call → Bool) (g : Nat × Bool) (c : Call) : Nat × Bool := (if acquires c then g.1 + 1 else g.1, g.2 || why c)

def gained {α : Type} (ok : α → Bool) : Out α → Nat × Bool → Prop
  | .ret a, g => g.1 = (if ok a then 1 else 0) ∧ (ok a = false → g.2 = true)
  | _, g => g.1 = 0

/-- The contract of C94, also for the program after other calls have been made. -/
def Gain {α : Type} (D : Call → Prop) (why : Call → Bool) (ok : α → Bool) (m : M α) : Prop :=
  ∀ e g, g.1 = 0 → W D (gain why) g e m (gained ok)

theorem foldl_gain (why : Call → Bool) (l : List Call) (g : Nat × Bool) :
    l.foldl (gain why) g = (g.1 + l.countP acquires, g.2 || l.any why) := by
  induction l generalizing g with
  | nil => simp
  | cons c l ih =>
    simp only [List.foldl_cons, ih, gain, List.countP_cons, List.any_cons]
    cases acquires c <;> simp [Bool.or_assoc] <;> omega

theorem acquired_of_gain {α : Type} {bug : Bool} {extra : Call → Prop} {why : Call → Bool} {ok : α → Bool} {m : M α}
    (h : Gain (fun c => Documented bug c ∧ extra c) why ok m) : Fulfils bug extra (Acquired ok) m := by
  intro e as hd
  have := h e (0, false) rfl as hd
  rw [foldl_gain] at this
  cases ho : (m e as).out <;> rw [ho] at this <;> simp only [gained, Nat.zero_add] at this <;> simp only [Acquired]
  · exact this
  · exact this.1
  · exact this
  · exact this
  · exact this

theorem acquiredOr_of_gain {bug : Bool} {extra : Call → Prop} {why : Call → Bool} {m : M Bool}
    (h : Gain (fun c => Documented bug c ∧ extra c) why id m) : Fulfils bug extra (AcquiredOr why) m := by
  intro e as hd
  have := h e (0, false) rfl as hd
  rw [foldl_gain] at this
  cases ho : (m e as).out with
  | ret b =>
    rw [ho] at this
    simp only [gained, Nat.zero_add, Bool.false_or, id] at this
    cases b
    · exact ⟨this.1, List.any_eq_true.1 (this.2 rfl)⟩
    · exact this.1
  | _ => rw [ho] at this; simp only [gained, Nat.zero_add] at this; exact this

macro "wt_step" : tactic => `(tactic| with_reducible first
  | (refine w_sys_bind ?_ (fun r hr => ?_); rotate_left; try dsimp only)
  | (refine w_pthread_bind ?_ ?_ (fun r hr hr' e' => ?_); rotate_left; rotate_left; try dsimp only)
  | (apply w_err_bind; try dsimp only)
  | apply w_throw_bind
  | apply w_throw
  | (apply w_pure_bind; try dsimp only)
  | apply w_pure
  | refine w_verify_bind (fun hv1 hv2 => ?_) (fun hv => ?_)
  | refine w_verify (fun hv1 hv2 => ?_) (fun hv => ?_)
  | refine w_sys ?_ (fun r hr => ?_)
  | split)

macro "wt_done" : tactic => `(tactic| first
  | (simp_all [next, gain, gained, acquires, unavailable, expired, misused, noDeadlock, usedWell, untilAcquired, notInterrupted, Documented, always, EINTR, EBUSY, EAGAIN, EINVAL, ETIMEDOUT,
      EOVERFLOW, waitFailed, waitTimeout, tlsOutOfIndexes, KERN_INVALID_ARGUMENT, KERN_ABORTED, KERN_TERMINATED, KERN_OPERATION_TIMED_OUT]; done)
  | (simp_all [next, gain, gained, acquires, unavailable, expired, misused, noDeadlock, usedWell, untilAcquired, notInterrupted, Documented, always, EINTR, EBUSY, EAGAIN, EINVAL, ETIMEDOUT,
      EOVERFLOW, waitFailed, waitTimeout, tlsOutOfIndexes, KERN_INVALID_ARGUMENT, KERN_ABORTED, KERN_TERMINATED, KERN_OPERATION_TIMED_OUT]; grind))

macro "wt" : tactic => `(tactic| (repeat' wt_step; all_goals first | wt_done | skip))

/-- A program that acquires nothing. -/
def Neutral {α : Type} (D : Call → Prop) (why : Call → Bool) (m : M α) : Prop :=
  ∀ e g, g.1 = 0 → W D (gain why) g e m (fun _ g => g.1 = 0)

theorem w_neutral_bind {α β : Type} {D : Call → Prop} {why : Call → Bool} {m : M α} {f : α → M β} {ok : β → Bool} {e : UInt32} {g : Nat × Bool}
    (hm : Neutral D why m) (hg : g.1 = 0) (h : ∀ a e' g', g'.1 = 0 → W D (gain why) g' e' (f a) (gained ok)) :
    W D (gain why) g e (m >>= f) (gained ok) := by
  refine w_bind (w_mono (hm e g hg) (fun o g' hg' => ?_))
  cases o with
  | ret a => exact fun e' => h a e' g' hg'
  | _ => exact hg'

theorem n_neutral_bind {α β : Type} {D : Call → Prop} {why : Call → Bool} {m : M α} {f : α → M β} {e : UInt32} {g : Nat × Bool}
    (hm : Neutral D why m) (hg : g.1 = 0) (h : ∀ a e' g', g'.1 = 0 → W D (gain why) g' e' (f a) (fun _ g => g.1 = 0)) :
    W D (gain why) g e (m >>= f) (fun _ g => g.1 = 0) := by
  refine w_bind (w_mono (hm e g hg) (fun o g' hg' => ?_))
  cases o with
  | ret a => exact fun e' => h a e' g' hg'
  | _ => exact hg'

macro "wg_step" : tactic => `(tactic| first
  | (refine w_neutral_bind (by assumption) ?_ (fun a e' g' hg' => ?_); rotate_left; try dsimp only)
  | (refine n_neutral_bind (by assumption) ?_ (fun a e' g' hg' => ?_); rotate_left; try dsimp only)
  | wt_step)

macro "wg" : tactic => `(tactic| (repeat' wg_step; all_goals first | wt_done | skip))

section
variable (c : Cfg) (D : Call → Prop) (why : Call → Bool)

theorem neutral_deleteCtx (w t h : Bool) : Neutral D why (deleteCtx w t h) := by
  intro e g hg
  unfold deleteCtx
  refine w_noexcept ?_
  wg

theorem neutral_ctxFailed (w t h : Bool) : Neutral D why (ctxFailed w t h) := by
  intro e g hg
  unfold ctxFailed
  have := neutral_deleteCtx D why w t h
  wg

theorem neutral_createCtx : Neutral D why createCtx := by
  intro e g hg
  unfold createCtx
  repeat' wt_step
  all_goals first | wt_done | exact neutral_ctxFailed D why _ _ _ _ _ (by wt_done)

theorem neutral_ownSlot : Neutral D why ownSlot := by
  intro e g hg
  unfold ownSlot
  wg

theorem neutral_queryKey : Neutral D why queryKey := by
  intro e g hg
  unfold queryKey
  repeat' wt_step
  all_goals first | wt_done | exact neutral_ownSlot D why _ _ (by wt_done)

theorem neutral_timerInit : Neutral D why timerInit := by
  intro e g hg
  unfold timerInit
  repeat' wt_step
  all_goals first | wt_done | exact neutral_queryKey D why _ _ (by wt_done)

theorem neutral_timerOnce : Neutral D why timerOnce := by
  intro e g hg
  unfold timerOnce
  have h : Neutral D why (loop (fun _ => .mem) (fun _ old =>
      pure (if old.res = 1 then .inl () else .inr (old.res == 0))) () : M Bool) := by
    intro e g hg
    refine w_loop (fun _ g => g.1 = 0) hg (fun _ _ h => h) (fun _ g a hg _ => w_pure ?_)
    by_cases h : a.res = 1 <;> simp [h, next, gain, acquires, hg]
  refine n_neutral_bind h hg (fun a e' g' hg' => ?_)
  split
  · exact neutral_timerInit D why _ _ hg'
  · exact w_pure hg'

theorem neutral_getWaitableTimer : Neutral D why getWaitableTimer := by
  intro e g hg
  unfold getWaitableTimer
  have h1 := neutral_timerOnce D why
  have h2 := neutral_createCtx D why
  wg

end

section
variable (c : Cfg) (bug : Bool) (extra : Call → Prop)

theorem gain_mutexLock : Gain (fun x => Documented bug x ∧ extra x) unavailable (fun _ => true) (mutexLock c) := by
  intro e g hg
  unfold mutexLock
  wg

theorem gain_mutexTryLock : Gain (fun x => Documented bug x ∧ extra x) unavailable id (mutexTryLock c) := by
  intro e g hg
  unfold mutexTryLock
  wg

theorem gain_timedMutexLock (h : c.timedlock = true) : Gain (fun x => Documented bug x ∧ extra x) unavailable (fun _ => true) (timedMutexLock c) := by
  intro e g hg
  unfold timedMutexLock
  rw [if_pos h]
  wg

theorem gain_timedMutexTryLock (h : c.timedlock = true) : Gain (fun x => Documented bug x ∧ extra x) unavailable id (timedMutexTryLock c) := by
  intro e g hg
  unfold timedMutexTryLock
  rw [if_pos h]
  wg

theorem gain_timedMutexTimedLock (why : Call → Bool) (hw : ∀ x, unavailable x = true → why x = true)
    (hw0 : ∀ r : Ans, r.res = 4 → why ⟨.pthread_mutex_timedlock, r⟩ = false) (h : c.timedlock = true) :
    Gain (fun x => Documented bug x ∧ extra x) why id (timedMutexTimedLock c) := by
  intro e g hg
  unfold timedMutexTimedLock
  rw [if_pos h]
  have hw' := fun r => hw ⟨.pthread_mutex_timedlock, r⟩
  wg

theorem gain_semTryWait : Gain (fun x => Documented bug x ∧ ((c.debug = true ∨ usedWell x) ∧ notInterrupted x)) unavailable id (semTryWait c) := by
  intro e g hg
  unfold semTryWait
  wg

theorem gain_semTryWait' : Gain (fun x => Documented bug x ∧ always x) (fun _ => true) id (semTryWait c) := by
  intro e g hg
  unfold semTryWait
  wg

theorem gain_eventWait (D : Call → Prop) : Gain D unavailable (fun _ => true) eventWait := by
  intro e g hg
  unfold eventWait
  wg

theorem gain_eventTryWait : Gain (fun x => Documented bug x ∧ extra x) unavailable id eventTryWait := by
  intro e g hg
  unfold eventTryWait
  wg

theorem gain_eventTimedAbs : Gain (fun x => Documented bug x ∧ extra x) unavailable id (eventTimedAbs c) := by
  intro e g hg
  unfold eventTimedAbs
  have := neutral_getWaitableTimer (fun x => Documented bug x ∧ extra x) unavailable
  wg

theorem gain_wsemWait (D : Call → Prop) : Gain D unavailable (fun _ => true) wsemWait := by
  intro e g hg
  unfold wsemWait
  wg

theorem gain_wsemTryWait : Gain (fun x => Documented bug x ∧ extra x) unavailable id wsemTryWait := by
  intro e g hg
  unfold wsemTryWait
  refine w_sys_bind hg (fun r hr => ?_)
  simp only [Documented] at hr
  rcases hr.1 with h | h | h
  · simp [h, waitFailed]; refine w_pure ?_; simp [gained, gain, acquires, hg, h]
  · simp [h, waitFailed]; refine w_pure ?_; simp [gained, gain, acquires, unavailable, hg, h]
  · simp [h, waitFailed]; wg

theorem gain_wsemTimedAbs : Gain (fun x => Documented bug x ∧ extra x) unavailable id (wsemTimedAbs c) := by
  intro e g hg
  unfold wsemTimedAbs
  have := neutral_getWaitableTimer (fun x => Documented bug x ∧ extra x) unavailable
  wg

theorem gain_machTimedWait (D : Call → Prop) (why : Call → Bool) (hw : ∀ x, unavailable x = true → why x = true) : Gain D why id machTimedWait := by
  intro e g hg
  unfold machTimedWait
  have hw' := fun r => hw ⟨.semaphore_timedwait, r⟩
  wg

theorem gain_dispatchWait : Gain (fun x => Documented bug x ∧ untilAcquired x) unavailable (fun _ => true) dispatchWait := by
  intro e g hg
  unfold dispatchWait
  wg

theorem gain_dispatchTimedWait (D : Call → Prop) (why : Call → Bool) (hw : ∀ x, unavailable x = true → why x = true) : Gain D why id dispatchTimedWait := by
  intro e g hg
  unfold dispatchTimedWait
  have hw' := fun r => hw ⟨.dispatch_semaphore_wait, r⟩
  wg

theorem gain_autoSemWait {D : Call → Prop} {why : Call → Bool} {m : M Unit} (h : Gain D why (fun _ => true) m) :
    Gain D why (fun _ => true) (autoSemWait m) := by
  intro e g hg
  unfold autoSemWait
  refine w_sys_bind hg (fun r hr => h _ _ ?_)
  simp [gain, acquires, hg]

theorem gain_autoSemTimedWait {D : Call → Prop} {why : Call → Bool} {m : M Bool} (h : Gain D why id m) :
    Gain D why id (autoSemTimedWait m) := by
  intro e g hg
  unfold autoSemTimedWait
  refine w_sys_bind hg (fun r hr => w_bind (w_mono (h _ _ ?_) (fun o g' h' => ?_)))
  · simp [gain, acquires, hg]
  · cases o with
    | ret b =>
      intro e'
      cases b
      · obtain ⟨h1, h2⟩ := h'
        refine w_sys_bind h1 (fun r hr => w_pure ?_)
        simp_all [gained, gain, acquires]
      · exact w_pure h'
    | _ => exact h'

theorem gain_clockLoop {D : Call → Prop} {why : Call → Bool} {rel : Int → M Bool} (h : ∀ t, Gain D why id (rel t))
    (hw : ∀ x, expired x = true → why x = true) (first : Bool) : Gain D why id (clockLoop first rel) := by
  intro e g hg
  unfold clockLoop
  refine w_loop (fun _ g => g.1 = 0) hg (fun _ _ h => h) (fun s g a hg ha => ?_)
  split
  · rename_i h'
    refine w_pure ?_
    have := hw ⟨.mem, a⟩ (by simp [expired, h'])
    simp [next, gained, gain, acquires, hg, this]
  · refine w_bind (w_mono (h _ _ _ ?_) (fun o g' h' => ?_))
    · simp [gain, acquires, hg]
    · cases o with
      | ret b =>
        intro e'
        cases b
        · exact w_pure h'.1
        · exact w_pure h'
      | _ => exact h'

theorem gain_semWait : Gain (fun x => Documented bug x ∧ (c.debug = true ∨ usedWell x)) unavailable (fun _ => true) (semWait c) := by
  intro e g hg
  unfold semWait
  refine w_loop (fun _ g => g.1 = 0) hg (fun _ _ h => h) (fun s g a hg ha => ?_)
  wg

theorem gain_semTimedWait (why : Call → Bool) (hw : ∀ x, unavailable x = true → why x = true) :
    Gain (fun x => Documented bug x ∧ (c.debug = true ∨ usedWell x)) why id (semTimedWait c) := by
  intro e g hg
  unfold semTimedWait
  have hw' := fun r => hw ⟨.sem_timedwait, r⟩
  refine w_loop (fun _ g => g.1 = 0) hg (fun _ _ h => h) (fun s g a hg ha => ?_)
  wg

theorem gain_semTimedWait' : Gain (fun x => Documented bug x ∧ always x) (fun _ => true) id (semTimedWait c) := by
  intro e g hg
  unfold semTimedWait
  refine w_loop (fun _ g => g.1 = 0) hg (fun _ _ h => h) (fun s g a hg ha => ?_)
  wg

theorem gain_machWait (D : Call → Prop) : Gain D unavailable (fun _ => true) machWait := by
  intro e g hg
  unfold machWait
  refine w_loop (fun _ g => g.1 = 0) hg (fun _ _ h => h) (fun s g a hg ha => ?_)
  wg

theorem gain_eventTimedRel (D : Call → Prop) (why : Call → Bool) (hw : ∀ x, unavailable x = true → why x = true) (t : Int) :
    Gain D why id (eventTimedRel t) := by
  intro e g hg
  unfold eventTimedRel
  refine w_loop (fun _ g => g.1 = 0) hg (fun _ _ h => h) (fun s g a hg ha => ?_)
  have hw' := hw ⟨.waitFor .event (chunk s), a⟩
  split
  · wg
  · split
    · generalize chunk s = n at *
      by_cases hl : s - (n.toNat : Int) > 0
      · wg
      · wg
    · wg

theorem gain_wsemTimedRel (D : Call → Prop) (why : Call → Bool) (hw : ∀ x, unavailable x = true → why x = true) (t : Int) :
    Gain D why id (wsemTimedRel t) := by
  intro e g hg
  unfold wsemTimedRel
  refine w_loop (fun _ g => g.1 = 0) hg (fun _ _ h => h) (fun s g a hg ha => ?_)
  have hw' := hw ⟨.waitFor .semaphore (chunk s), a⟩
  split
  · wg
  · split
    · generalize chunk s = n at *
      by_cases hl : s - (n.toNat : Int) > 0
      · wg
      · wg
    · wg

end

/-! ## C95 -/

/-- The state is not `bad`, and `free` at the end. -/
def tidy {α : Type} : Out α → Own → Prop
  | .ret _, g => g = .free
  | .threw _, g => g = .free
  | _, g => g ≠ .bad

theorem disciplined_of_w {α : Type} {bug : Bool} {extra : Call → Prop} {m : M α}
    (h : ∀ e, W (fun c => Documented bug c ∧ extra c) own .free e m tidy) : Fulfils bug extra Disciplined m := by
  intro e as hd
  have := h e as hd
  cases ho : (m e as).out <;> rw [ho] at this <;> exact this

/-- Inside the block the mutex stays owned. -/
def inside {α : Type} : Out α → Own → Prop
  | .ret _, g => g = .owned
  | .threw _, g => g = .owned
  | _, g => g ≠ .bad

macro "wo_done" : tactic => `(tactic| first
  | (simp_all [next, own, tidy, inside, EINTR, ETIMEDOUT, EBUSY]; done)
  | (simp_all [next, own, tidy, inside, EINTR, ETIMEDOUT, EBUSY]; grind))

macro "wo" : tactic => `(tactic| (repeat' wt_step; all_goals first | wo_done | skip))

section
variable (c : Cfg) (extra : Call → Prop)

theorem w_mutexUnlock (e : UInt32) : W (fun x => Documented c.eintrBug x ∧ extra x) own .owned e (mutexUnlock c) (fun o g => match o with
    | .ret _ => g = .free | .threw _ => False | _ => g ≠ .bad) := by
  unfold mutexUnlock
  refine w_noexcept ?_
  refine w_pthread_bind ?_ ?_ (fun r hr hr' e' => ?_)
  · simp
  · intro r hr; simp [own, hr]
  · have : r.res ≠ 4 := by
      rcases hr.1 with h | h
      · exact hr' h
      · exact h
    simp only [own, this, if_false]
    refine w_verify (fun _ _ => by simp) (fun _ => by simp)

theorem w_mutexUnlock' (e : UInt32) : W (fun x => Documented c.eintrBug x ∧ extra x) own .owned e (noexcept (mutexUnlock c)) (fun o g => match o with
    | .ret _ => g = .free | .threw _ => False | _ => g ≠ .bad) := by
  refine w_noexcept (w_mono (w_mutexUnlock c extra e) (fun o g h => ?_))
  cases o <;> simp_all

theorem w_emuGuard {α : Type} {m : M α} (h : ∀ e, W (fun x => Documented c.eintrBug x ∧ extra x) own .owned e m inside) (e : UInt32) :
    W (fun x => Documented c.eintrBug x ∧ extra x) own .free e (emuGuard c m) tidy := by
  unfold emuGuard
  refine w_bind ?_
  unfold mutexLock
  refine w_pthread_bind ?_ ?_ (fun r hr hr' e' => ?_)
  · simp [next, tidy]
  · intro r hr; simp [own, hr]
  · by_cases h0 : r.res = 0
    · simp only [h0, ne_eq, not_true_eq_false, if_false, own, if_true, reduceCtorEq]
      refine w_pure (fun e => w_guarded (w_mono (h e) (fun o g hg => ?_)))
      cases o with
      | ret a =>
        simp only [inside] at hg
        subst hg
        exact fun e' => w_mono (w_mutexUnlock' c extra e') (fun o g h => by cases o <;> simp_all [next, tidy])
      | threw x =>
        simp only [inside] at hg
        subst hg
        exact fun e' => w_mono (w_mutexUnlock' c extra e') (fun o g h => by cases o <;> simp_all [tidy])
      | _ => exact hg
    · simp only [h0, ne_eq, not_false_eq_true, if_true]
      refine w_throw ?_
      simp [next, tidy, own, h0]

theorem w_condNotifyOne (e : UInt32) : W (fun x => Documented c.eintrBug x ∧ extra x) own .owned e (condNotifyOne c) inside := by
  unfold condNotifyOne
  refine w_noexcept ?_
  wo

theorem w_condNotifyAll (e : UInt32) : W (fun x => Documented c.eintrBug x ∧ extra x) own .owned e (condNotifyAll c) inside := by
  unfold condNotifyAll
  refine w_noexcept ?_
  wo

theorem w_condWait (e : UInt32) : W (fun x => Documented c.eintrBug x ∧ extra x) own .owned e (condWait c) inside := by
  unfold condWait
  wo

theorem w_condTimedWait (e : UInt32) : W (fun x => Documented c.eintrBug x ∧ extra x) own .owned e (condTimedWait c) inside := by
  unfold condTimedWait
  wo

theorem w_emuPost (all : Bool) (e : UInt32) : W (fun x => Documented c.eintrBug x ∧ extra x) own .free e (emuPost c all) tidy := by
  refine w_emuGuard c extra (fun e => ?_) e
  refine w_sys_bind (by simp [inside]) (fun r hr => ?_)
  simp only [own, if_true]
  split
  · split
    · exact w_condNotifyAll c extra _
    · exact w_condNotifyOne c extra _
  · exact w_pure rfl

theorem w_emuTryWait (e : UInt32) : W (fun x => Documented c.eintrBug x ∧ extra x) own .free e (emuTryWait c) tidy := by
  refine w_emuGuard c extra (fun e => ?_) e
  wo

theorem w_inside_bind {α β : Type} {D : Call → Prop} {e : UInt32} {m : M α} {f : α → M β} {Q : Out β → Own → Prop}
    (hm : W D own .owned e m inside) (hQ : ∀ x, Q (.threw x) .owned) (hQ' : ∀ g, g ≠ .bad → Q .pending g ∧ Q .assertion g ∧ Q .terminated g)
    (h : ∀ a e', W D own .owned e' (f a) Q) : W D own .owned e (m >>= f) Q := by
  refine w_bind (w_mono hm (fun o g hg => ?_))
  cases o with
  | ret a => simp only [inside] at hg; subst hg; exact fun e' => h a e'
  | threw x => simp only [inside] at hg; subst hg; exact hQ x
  | pending => exact (hQ' g hg).1
  | assertion => exact (hQ' g hg).2.1
  | terminated => exact (hQ' g hg).2.2

theorem w_emuWait (e : UInt32) : W (fun x => Documented c.eintrBug x ∧ extra x) own .free e (emuWait c) tidy := by
  refine w_emuGuard c extra (fun e => ?_) e
  refine w_loop (fun _ g => g = .owned) rfl (fun _ _ h => by simp [inside, h]) (fun s g a hg ha => ?_)
  subst hg
  simp only [own, if_true]
  split
  · refine w_inside_bind (w_condWait c extra _) (fun _ => rfl) (fun g hg => ⟨hg, hg, hg⟩) (fun _ _ => w_pure rfl)
  · exact w_pure rfl

theorem w_emuTimedWait (e : UInt32) : W (fun x => Documented c.eintrBug x ∧ extra x) own .free e (emuTimedWait c) tidy := by
  refine w_emuGuard c extra (fun e => ?_) e
  refine w_loop (fun _ g => g = .owned) rfl (fun _ _ h => by simp [inside, h]) (fun s g a hg ha => ?_)
  subst hg
  simp only [own, if_true]
  split
  · refine w_inside_bind (w_condTimedWait c extra _) (fun _ => rfl) (fun g hg => ⟨hg, hg, hg⟩) (fun b e' => ?_)
    split
    · refine w_sys_bind (by simp [next, inside]) (fun r hr => w_pure rfl)
    · exact w_pure rfl
  · exact w_pure rfl

theorem w_anyNotify (all : Bool) (e : UInt32) : W (fun x => Documented c.eintrBug x ∧ extra x) own .free e (anyNotify c all) tidy := by
  refine w_emuGuard c extra (fun e => ?_) e
  split
  · exact w_condNotifyAll c extra _
  · exact w_condNotifyOne c extra _

theorem w_anyWaiting {α : Type} {m : M α} (h : ∀ e, W (fun x => Documented c.eintrBug x ∧ extra x) own .owned e m inside) (e : UInt32) :
    W (fun x => Documented c.eintrBug x ∧ extra x) own .free e (anyWaiting c m) tidy := by
  unfold anyWaiting
  refine w_bind ?_
  unfold mutexLock
  refine w_pthread_bind ?_ ?_ (fun r hr hr' e' => ?_)
  · simp [next, tidy]
  · intro r hr; simp [own, hr]
  by_cases h0 : r.res = 0
  · simp only [h0, ne_eq, not_true_eq_false, if_false, own, if_true, reduceCtorEq]
    refine w_pure (fun e => w_bind (w_rethrowing ?_))
    unfold userUnlock
    refine w_sys_bind (by simp [next, tidy]) (fun r hr => ?_)
    simp only [own, if_true]
    split
    · refine w_throw (fun e' => w_mono (w_mutexUnlock' c extra e') (fun o g h => by cases o <;> simp_all [next, tidy]))
    · refine w_pure (fun e => w_guarded (w_guarded (w_mono (h e) (fun o g hg => ?_))))
      have hu : ∀ (g : Own) (e : UInt32) (Q : Out Unit → Own → Prop), g = .free → Q .pending .free → (∀ x, Q (.threw x) .free) → Q (.ret ()) .free →
          W (fun x => Documented c.eintrBug x ∧ extra x) own g e userLock Q := by
        intro g e Q hg h1 h2 h3
        subst hg
        unfold userLock
        refine w_sys_bind h1 (fun r hr => ?_)
        simp only [own, if_true]
        split
        · exact w_throw (h2 _)
        · exact w_pure h3
      cases o with
      | ret a =>
        simp only [inside] at hg
        subst hg
        refine fun e' => w_mono (w_mutexUnlock' c extra e') (fun o g h => ?_)
        cases o with
        | ret _ => exact fun e => hu _ _ _ h (by simp [next, tidy]) (fun _ => by simp [next, tidy]) (by simp [next, tidy])
        | threw _ => exact h.elim
        | _ => exact h
      | threw x =>
        simp only [inside] at hg
        subst hg
        refine fun e' => w_mono (w_mutexUnlock' c extra e') (fun o g h => ?_)
        cases o with
        | ret _ => exact fun e => hu _ _ _ h (by simp [tidy]) (fun _ => by simp [tidy]) (by simp [tidy])
        | threw _ => exact h.elim
        | _ => exact h
      | _ => exact hg
  · simp only [h0, ne_eq, not_false_eq_true, if_true]
    refine w_throw ?_
    simp [next, tidy, own, h0]

theorem w_pthreadGuard {α : Type} {m : M α} (hdbg : c.debug = true) (h : ∀ e, W (fun x => Documented c.eintrBug x ∧ extra x) own .owned e m inside) (e : UInt32) :
    W (fun x => Documented c.eintrBug x ∧ extra x) own .free e (pthreadGuard c m) tidy := by
  unfold pthreadGuard
  refine w_bind (w_noexcept ?_)
  refine w_pthread_bind ?_ ?_ (fun r hr hr' e' => ?_)
  · simp [next, tidy]
  · intro r hr; simp [own, hr]
  by_cases h0 : r.res = 0
  · simp only [h0, own, if_true, if_false, reduceCtorEq]
    refine w_verify (by simp) (fun _ e => w_guarded (w_mono (h e) (fun o g hg => ?_)))
    have hu := fun e => w_mutexUnlock c extra e
    unfold mutexUnlock at hu
    cases o with
    | ret a =>
      simp only [inside] at hg
      subst hg
      exact fun e' => w_mono (hu e') (fun o g h => by cases o <;> simp_all [next, tidy])
    | threw x =>
      simp only [inside] at hg
      subst hg
      exact fun e' => w_mono (hu e') (fun o g h => by cases o <;> simp_all [tidy])
    | _ => exact hg
  · refine w_verify (fun _ _ => by simp [next, tidy, own, h0]) (fun hv => ?_)
    have := hv hdbg
    simp [h0] at this

theorem w_timedMutexLock (ht : c.timedlock = false) (hdbg : c.debug = true) (e : UInt32) :
    W (fun x => Documented c.eintrBug x ∧ extra x) own .free e (timedMutexLock c) tidy := by
  unfold timedMutexLock
  rw [if_neg (by simp [ht])]
  refine w_pthreadGuard c extra hdbg (fun e => ?_) e
  refine w_loop (fun _ g => g = .owned) rfl (fun _ _ h => by simp [inside, h]) (fun s g a hg ha => ?_)
  subst hg
  wo

theorem w_timedMutexUnlock (ht : c.timedlock = false) (hdbg : c.debug = true) (e : UInt32) :
    W (fun x => Documented c.eintrBug x ∧ extra x) own .free e (timedMutexUnlock c) tidy := by
  unfold timedMutexUnlock
  rw [if_neg (by simp [ht])]
  refine w_noexcept (w_mono (w_pthreadGuard c extra hdbg (fun e => ?_) e) (fun o g h => by cases o <;> simp_all [tidy]))
  wo

theorem w_timedMutexTryLock (ht : c.timedlock = false) (hdbg : c.debug = true) (e : UInt32) :
    W (fun x => Documented c.eintrBug x ∧ extra x) own .free e (timedMutexTryLock c) tidy := by
  unfold timedMutexTryLock
  rw [if_neg (by simp [ht])]
  refine w_pthreadGuard c extra hdbg (fun e => ?_) e
  wo

theorem w_timedMutexTimedLock (ht : c.timedlock = false) (hdbg : c.debug = true) (e : UInt32) :
    W (fun x => Documented c.eintrBug x ∧ extra x) own .free e (timedMutexTimedLock c) tidy := by
  unfold timedMutexTimedLock
  rw [if_neg (by simp [ht])]
  refine w_pthreadGuard c extra hdbg (fun e => ?_) e
  refine w_loop (fun _ g => g = .owned) rfl (fun _ _ h => by simp [inside, h]) (fun s g a hg ha => ?_)
  subst hg
  wo

end

/-! The user's lock. -/

def held {α : Type} (k : Nat) : Out α → Hold → Prop
  | .ret _, g => ∃ n, k ≤ n ∧ g = .held n
  | .threw x, g => (∃ n, g = .held n) ∨ ∃ r, g = .failed r ∧ x = ⟨.user, .os r.res⟩
  | _, g => g ≠ .bad

theorem relocked_of_w {α : Type} {bug : Bool} {extra : Call → Prop} {m : M α} {k : Nat}
    (h : ∀ e, W (fun c => Documented bug c ∧ extra c) hold (.held 0) e m (held k)) : Fulfils bug extra (Relocked k) m := by
  intro e as hd
  have := h e as hd
  cases ho : (m e as).out <;> rw [ho] at this <;> exact this

/-- A program that does not touch the user's lock and sleeps only in the state `released`. -/
def Aside {α : Type} (D : Call → Prop) (m : M α) : Prop := ∀ e g, W D hold g e m (fun _ g' => g' = g)

theorem aside_pure {α : Type} {D : Call → Prop} {a : α} : Aside D (pure a : M α) := fun _ _ => w_pure rfl

theorem aside_bind {α β : Type} {D : Call → Prop} {m : M α} {f : α → M β} (hm : Aside D m) (hf : ∀ a, Aside D (f a)) : Aside D (m >>= f) := by
  intro e g
  refine w_bind (w_mono (hm e g) (fun o g' hg => ?_))
  subst hg
  cases o with
  | ret a => exact fun e' => hf a e' g'
  | _ => rfl

theorem aside_throw {α : Type} {D : Call → Prop} {c : Cls} {code : Code} : Aside D (throwExc c code : M α) := fun _ _ => w_throw rfl

theorem aside_err {D : Call → Prop} : Aside D getLastError := by
  intro e g as hd; rfl

theorem aside_verify {D : Call → Prop} {dbg b : Bool} : Aside D (verify dbg b) := fun _ _ => w_verify (fun _ _ => rfl) (fun _ => rfl)

theorem aside_sys {D : Call → Prop} {a : Api} (h : ∀ g r, hold g ⟨a, r⟩ = g) : Aside D (sys a) := fun _ g => w_sys rfl (fun r _ => h g r)

theorem aside_noexcept {α : Type} {D : Call → Prop} {m : M α} (h : Aside D m) : Aside D (noexcept m) :=
  fun e g => w_noexcept (w_mono (h e g) (fun o g' hg => by cases o <;> exact hg))

theorem aside_guarded {α : Type} {D : Call → Prop} {m : M α} {dt : M Unit} (h : Aside D m) (hd : Aside D dt) : Aside D (guarded m dt) := by
  intro e g
  refine w_guarded (w_mono (h e g) (fun o g' hg => ?_))
  subst hg
  cases o with
  | ret a => exact fun e' => w_mono (hd e' g') (fun o g'' h => by cases o <;> exact h)
  | threw x => exact fun e' => w_mono (hd e' g') (fun o g'' h => by cases o <;> exact h)
  | _ => rfl

theorem aside_rethrowing {α : Type} {D : Call → Prop} {m : M α} {hdl : M Unit} (h : Aside D m) (hd : Aside D hdl) : Aside D (rethrowing m hdl) := by
  intro e g
  refine w_rethrowing (w_mono (h e g) (fun o g' hg => ?_))
  subst hg
  cases o with
  | threw x => exact fun e' => w_mono (hd e' g') (fun o g'' h => by cases o <;> exact h)
  | _ => rfl

theorem aside_loop {σ α : Type} {D : Call → Prop} {api : σ → Api} {body : σ → Ans → M (σ ⊕ α)} {s : σ} (ha : ∀ s g r, hold g ⟨api s, r⟩ = g)
    (hb : ∀ s a, Aside D (body s a)) : Aside D (loop api body s) := by
  intro e g
  refine w_loop (fun _ g' => g' = g) rfl (fun _ _ h => h) (fun s g' a hg hd => ?_)
  subst hg
  rw [ha]
  refine w_mono (hb s a _ _) (fun o g'' h => ?_)
  cases o with
  | ret x => cases x <;> exact h
  | _ => exact h

theorem aside_pthread {D : Call → Prop} (c : Cfg) {a : Api} (h : ∀ g r, hold g ⟨a, r⟩ = g) : Aside D (pthread c a) := by
  unfold pthread
  split
  · exact aside_loop (fun _ => h) (fun _ _ => aside_pure)
  · exact aside_bind (aside_sys h) (fun _ => aside_pure)

macro "aside" : tactic => `(tactic| repeat' (with_reducible first
  | apply aside_pure
  | apply aside_throw
  | apply aside_err
  | apply aside_verify
  | assumption
  | (apply aside_sys; intros; with_unfolding_all rfl)
  | (apply aside_pthread; intros; with_unfolding_all rfl)
  | apply aside_noexcept
  | apply aside_guarded
  | apply aside_rethrowing
  | (apply aside_loop; · intros; with_unfolding_all rfl)
  | apply aside_bind
  | split
  | (intro; try dsimp only)))

section
variable (D : Call → Prop) (c : Cfg)

theorem aside_getEvent : Aside D getEvent := by unfold getEvent; aside
theorem aside_wmutexLock : Aside D wmutexLock := by
  unfold wmutexLock wmutexPrivLock wmutexTryLock stillLocked
  have := aside_getEvent D
  aside
theorem aside_wmutexUnlock : Aside D wmutexUnlock := by
  unfold wmutexUnlock
  have := aside_getEvent D
  aside
theorem aside_withInternal {α : Type} {m : M α} (h : Aside D m) : Aside D (withInternal m) := by
  unfold withInternal
  have h1 := aside_wmutexLock D
  have h2 := aside_wmutexUnlock D
  aside
theorem aside_newWaiter : Aside D newWaiter := by unfold newWaiter; aside
theorem aside_initiateWait : Aside D initiateWait := by
  unfold initiateWait
  have := aside_newWaiter D
  refine aside_withInternal D ?_
  aside
theorem aside_waitFailure {α : Type} : Aside D (waitFailure : M α) := by
  unfold waitFailure
  have := aside_withInternal D (m := do let _ ← sys .mem) (by aside)
  aside
theorem aside_deleteCtx (w t h : Bool) : Aside D (deleteCtx w t h) := by unfold deleteCtx; aside
theorem aside_ctxFailed (w t h : Bool) : Aside D (ctxFailed w t h) := by
  unfold ctxFailed
  have := aside_deleteCtx D w t h
  aside
theorem aside_createCtx : Aside D createCtx := by
  unfold createCtx
  have h1 := aside_ctxFailed D true true true
  have h2 := aside_ctxFailed D true true false
  have h3 := aside_ctxFailed D false true false
  have h4 := aside_ctxFailed D false false false
  aside
theorem aside_ownSlot : Aside D ownSlot := by unfold ownSlot; aside
theorem aside_queryKey : Aside D queryKey := by
  unfold queryKey
  have := aside_ownSlot D
  aside
theorem aside_timerInit : Aside D timerInit := by
  unfold timerInit
  have := aside_queryKey D
  aside
theorem aside_getWaitableTimer : Aside D getWaitableTimer := by
  unfold getWaitableTimer timerOnce
  have h1 := aside_timerInit D
  have h2 := aside_createCtx D
  aside

/-- A program that sleeps, but does not touch the user's lock. -/
def Sleeps {α : Type} (D : Call → Prop) (m : M α) : Prop := ∀ e n, W D hold (.released n) e m (fun _ g' => g' = .released n)

theorem sleeps_wcvPrivWait : Sleeps D wcvPrivWait := by
  intro e n
  unfold wcvPrivWait
  refine w_loop (fun _ g' => g' = .released n) rfl (fun _ _ h => h) (fun s g' a hg hd => ?_)
  subst hg
  simp only [hold]
  split
  · exact w_mono (aside_waitFailure D _ _) (fun o g h => by cases o with | ret x => cases x <;> exact h | _ => exact h)
  · refine w_bind (w_mono (aside_withInternal D (m := sys .mem) (aside_sys (fun _ _ => rfl)) _ _) (fun o g h => ?_))
    subst h
    cases o with
    | ret x =>
      refine fun _ => w_pure ?_
      by_cases hx : x.res > 0 <;> simp [next, hx]
    | _ => rfl

theorem sleeps_wcvWaitRel (t : Int) : Sleeps D (wcvWaitRel t) := by
  intro e n
  unfold wcvWaitRel
  split
  · refine w_loop (fun _ g' => g' = .released n) rfl (fun _ _ h => h) (fun s g' a hg hd => ?_)
    subst hg
    simp only [hold]
    split
    · refine w_bind (w_mono (aside_withInternal D (m := sys .mem) (aside_sys (fun _ _ => rfl)) _ _) (fun o g h => ?_))
      subst h
      cases o with
      | ret x =>
        refine fun _ => w_pure ?_
        by_cases hx : x.res > 0 <;> simp [next, hx]
      | _ => rfl
    · split
      · refine w_pure ?_
        generalize s - ((chunk s).toNat : Int) = n
        by_cases hl : n > 0 <;> simp [next, hl]
      · exact w_mono (aside_waitFailure D _ _) (fun o g h => by cases o with | ret x => cases x <;> exact h | _ => exact h)
  · exact w_pure rfl

theorem sleeps_bind {α β : Type} {m : M α} {f : α → M β} (hm : Sleeps D m) (hf : ∀ a, Sleeps D (f a)) : Sleeps D (m >>= f) := by
  intro e n
  refine w_bind (w_mono (hm e n) (fun o g' hg => ?_))
  subst hg
  cases o with
  | ret a => exact fun e' => hf a e' n
  | _ => rfl

theorem sleeps_of_aside {α : Type} {m : M α} (h : Aside D m) : Sleeps D m := fun e n => h e _

theorem sleeps_wcvPrivTimedRel (t : Int) : Sleeps D (wcvPrivTimedRel t) := by
  unfold wcvPrivTimedRel
  refine sleeps_bind D (sleeps_wcvWaitRel D t) (fun b => sleeps_of_aside D ?_)
  have := aside_withInternal D (m := sys .mem) (aside_sys (fun _ _ => rfl))
  aside

theorem sleeps_wcvPrivTimedAbs : Sleeps D wcvPrivTimedAbs := by
  intro e n
  unfold wcvPrivTimedAbs
  refine w_loop (fun _ g' => g' = .released n) rfl (fun _ _ h => h) (fun s g' a hg hd => ?_)
  subst hg
  simp only [hold]
  split
  · exact w_mono (aside_waitFailure D _ _) (fun o g h => by cases o with | ret x => cases x <;> exact h | _ => exact h)
  · split
    · refine w_bind (w_mono (aside_withInternal D (m := sys .mem) (aside_sys (fun _ _ => rfl)) _ _) (fun o g h => ?_))
      subst h
      cases o with
      | ret x =>
        refine fun _ => w_pure ?_
        by_cases hx : x.res > 0 <;> simp [next, hx]
      | _ => rfl
    · split
      · refine w_bind (w_mono (aside_withInternal D (m := sys .mem) (aside_sys (fun _ _ => rfl)) _ _) (fun o g h => ?_))
        subst h
        cases o with
        | ret x => exact fun _ => w_pure rfl
        | _ => rfl
      · exact w_verify_bind (fun _ _ => rfl) (fun _ => w_pure rfl)

theorem sleeps_condWait : Sleeps D (condWait c) := by
  intro e n
  unfold condWait
  refine w_pthread_bind rfl (fun _ _ => rfl) (fun r hr hr' e' => ?_)
  split
  · exact w_throw rfl
  · exact w_pure rfl

theorem sleeps_condTimedWait : Sleeps D (condTimedWait c) := by
  intro e n
  unfold condTimedWait
  refine w_pthread_bind rfl (fun _ _ => rfl) (fun r hr hr' e' => ?_)
  split
  · exact w_pure rfl
  · split
    · exact w_throw rfl
    · exact w_pure rfl

/-- The destructor of `relocker`. -/
theorem w_relock {e : UInt32} {n : Nat} {Q : Out Unit → Hold → Prop} (h0 : Q .pending (.released n)) (h1 : Q (.ret ()) (.held (n + 1)))
    (h2 : ∀ r : Ans, r.res ≠ 0 → Q (.threw ⟨.user, .os r.res⟩) (.failed r)) : W D hold (.released n) e userLock Q := by
  unfold userLock
  refine w_sys_bind h0 (fun r _ => ?_)
  by_cases hr : r.res = 0
  · simp only [hold, hr, if_true, ne_eq, not_true_eq_false, if_false]
    exact w_pure h1
  · simp only [hold, hr, if_false, ne_eq, not_false_eq_true, if_true]
    exact w_throw (h2 r hr)

theorem w_sleep_relock {α : Type} {m : M α} {e : UInt32} {n : Nat} (hm : Sleeps D m) :
    W D hold (.released n) e (guarded m userLock) (held (n + 1)) := by
  refine w_guarded (w_mono (hm e n) (fun o g hg => ?_))
  subst hg
  cases o with
  | ret a => exact fun e' => w_relock D (by simp [next, held]) ⟨n + 1, Nat.le_refl _, rfl⟩ (fun r _ => .inr ⟨r, rfl, rfl⟩)
  | threw x => exact fun e' => w_relock D (by simp [held]) (.inl ⟨n + 1, rfl⟩) (fun r _ => by simp [held])
  | _ => simp [held]

theorem w_wcvWaiting {α : Type} {m : M α} {e : UInt32} {n : Nat} (hm : Sleeps D m) :
    W D hold (.held n) e (wcvWaiting m) (held (n + 1)) := by
  unfold wcvWaiting
  refine w_bind (w_mono (aside_initiateWait D e _) (fun o g hg => ?_))
  subst hg
  cases o with
  | ret _ =>
    refine fun e => w_bind (w_noexcept ?_)
    unfold userUnlock
    refine w_sys_bind (by simp [next, held]) (fun r _ => ?_)
    by_cases hr : r.res = 0
    · simp only [hold, hr, if_true, ne_eq, not_true_eq_false, if_false]
      exact w_pure (fun e => w_sleep_relock D hm)
    · simp only [hold, hr, if_false, ne_eq, not_false_eq_true, if_true]
      exact w_throw (by simp [next, held])
  | threw x => exact .inl ⟨n, rfl⟩
  | _ => simp [next, held]

theorem w_wcvTimedAbs {e : UInt32} {n : Nat} : W D hold (.held n) e wcvTimedAbs (held (n + 1)) := by
  unfold wcvTimedAbs
  refine w_bind (w_mono (aside_getWaitableTimer D e _) (fun o g hg => ?_))
  subst hg
  cases o with
  | ret _ =>
    refine fun e => w_sys_bind (by simp [held]) (fun r _ => ?_)
    simp only [hold]
    split
    · exact w_err_bind (w_throw_bind (.inl ⟨n, rfl⟩))
    · exact w_pure_bind (w_wcvWaiting D (sleeps_wcvPrivTimedAbs D))
  | threw x => exact .inl ⟨n, rfl⟩
  | _ => simp [next, held]

theorem held_mono {α : Type} {k k' : Nat} (hk : k' ≤ k) {o : Out α} {g : Hold} (h : held k o g) : held k' o g := by
  cases o with
  | ret a => obtain ⟨n, h1, h2⟩ := h; exact ⟨n, Nat.le_trans hk h1, h2⟩
  | _ => exact h

theorem w_clockLoop_held {rel : Int → M Bool} (h : ∀ t e n, W D hold (.held n) e (rel t) (held (n + 1))) {e : UInt32} :
    W D hold (.held 0) e (clockLoop false rel) (held 0) := by
  unfold clockLoop
  refine w_loop (fun _ g => ∃ n, g = .held n) ⟨0, rfl⟩ (fun _ g hg => by obtain ⟨n, rfl⟩ := hg; simp [held]) (fun s g a hg hd => ?_)
  obtain ⟨n, rfl⟩ := hg
  simp only [hold]
  split
  · exact w_pure ⟨n, Nat.zero_le _, rfl⟩
  · refine w_bind (w_mono (h _ _ n) (fun o g hg => ?_))
    cases o with
    | ret b =>
      obtain ⟨n', h1, rfl⟩ := hg
      cases b
      · exact fun _ => w_pure ⟨n', rfl⟩
      · exact fun _ => w_pure ⟨n', Nat.zero_le _, rfl⟩
    | threw x => exact hg
    | _ => exact hg

theorem w_anyWaiting_held {α : Type} {m : M α} {e : UInt32} {n : Nat} (hm : Sleeps D m) :
    W D hold (.held n) e (anyWaiting c m) (held (n + 1)) := by
  have hl : Aside D (mutexLock c) := by unfold mutexLock; aside
  have hu : Aside D (noexcept (mutexUnlock c)) := by unfold mutexUnlock; aside
  have hu' : ∀ e g, W D hold g e (noexcept (mutexUnlock c)) (fun o g' => g' = g ∧ ∀ x, o ≠ .threw x) := by
    intro e g as hd
    refine ⟨hu e g as hd, fun x => ?_⟩
    unfold noexcept
    dsimp only
    cases ho : (mutexUnlock c e as).out <;> simp [ho]
  unfold anyWaiting
  refine w_bind (w_mono (hl e _) (fun o g hg => ?_))
  subst hg
  cases o with
  | ret _ =>
    refine fun e => w_bind (w_rethrowing ?_)
    unfold userUnlock
    refine w_sys_bind (by simp [next, held]) (fun r _ => ?_)
    by_cases hr : r.res = 0
    · simp only [hold, hr, if_true, ne_eq, not_true_eq_false, if_false]
      refine w_pure (fun e => w_sleep_relock D (fun e _ => ?_))
      refine w_guarded (w_mono (hm e _) (fun o g hg => ?_))
      subst hg
      cases o with
      | ret a => exact fun e' => w_mono (hu e' _) (fun o g'' h => by cases o <;> exact h)
      | threw x => exact fun e' => w_mono (hu e' _) (fun o g'' h => by cases o <;> exact h)
      | _ => rfl
    · simp only [hold, hr, if_false, ne_eq, not_false_eq_true, if_true]
      refine w_throw (fun e' => w_mono (hu' e' _) (fun o g'' h => ?_))
      obtain ⟨rfl, h⟩ := h
      cases o with
      | ret _ => exact .inr ⟨r, rfl, rfl⟩
      | threw x => exact absurd rfl (h x)
      | _ => simp [next, held]
  | threw x => exact .inl ⟨n, rfl⟩
  | _ => simp [next, held]

end

/-! Timeouts. -/

def seen (why : Call → Bool) (b : Bool) (c : Call) : Bool := b || why c

/-- `false` is returned only if the system has said `why`. -/
def Timely (D : Call → Prop) (why : Call → Bool) (m : M Bool) : Prop := ∀ e b, W D (seen why) b e m (fun o b' => o = .ret false → b' = true)

theorem foldl_seen (why : Call → Bool) (l : List Call) (b : Bool) : l.foldl (seen why) b = (b || l.any why) := by
  induction l generalizing b with
  | nil => simp
  | cons c l ih => simp [ih, seen, Bool.or_assoc]

theorem inTime_of_timely {bug : Bool} {extra : Call → Prop} {why : Call → Bool} {m : M Bool}
    (h : Timely (fun c => Documented bug c ∧ extra c) why m) : Fulfils bug extra (InTime why) m := by
  intro e as hd
  have := h e false as hd
  rw [foldl_seen] at this
  cases ho : (m e as).out with
  | ret b =>
    cases b
    · exact List.any_eq_true.1 (by simpa using this ho)
    · trivial
  | _ => trivial

section
variable {α β σ : Type} {D : Call → Prop} {why : Call → Bool}

theorem w_seen {m : M α} {e : UInt32} : W D (seen why) true e m (fun _ b => b = true) := by
  intro as hd
  rw [foldl_seen]
  rfl

theorem timely_bind {m : M α} {f : α → M Bool} (hf : ∀ a, Timely D why (f a)) : Timely D why (m >>= f) := by
  intro e b
  refine w_bind (fun as hd => ?_)
  cases (m e as).out with
  | ret a => exact fun e' => hf a e' _
  | _ => intro h; cases h

theorem timely_bind' {m : M Bool} {f : Bool → M Bool} (hm : Timely D why m) (hf : Timely D why (f true)) : Timely D why (m >>= f) := by
  intro e b
  refine w_bind (w_mono (hm e b) (fun o b' h => ?_))
  cases o with
  | ret a =>
    cases a
    · intro e'
      have := h rfl
      subst this
      exact w_mono w_seen (fun _ _ h _ => h)
    · exact fun e' => hf e' _
  | _ => intro h; cases h

theorem timely_true : Timely D why (pure true) := fun _ _ => w_pure (by simp)

theorem timely_throw {c : Cls} {code : Code} : Timely D why (throwExc c code) := fun _ _ => w_throw (by simp)

theorem timely_guarded {m : M Bool} {dt : M Unit} (hm : Timely D why m) : Timely D why (guarded m dt) := by
  intro e b
  refine w_guarded (w_mono (hm e b) (fun o b' h => ?_))
  cases o with
  | ret a =>
    intro e'
    cases a
    · have := h rfl
      subst this
      exact w_mono w_seen (fun o b h => by cases o <;> simp_all [next])
    · exact fun as hd => by cases (dt e' as).out <;> simp [next]
  | threw x => exact fun e' as hd => by cases (dt e' as).out <;> simp
  | _ => simp

theorem timely_rethrowing {m : M Bool} {dt : M Unit} (hm : Timely D why m) : Timely D why (rethrowing m dt) := by
  intro e b
  refine w_rethrowing (w_mono (hm e b) (fun o b' h => ?_))
  cases o with
  | ret a => exact h
  | threw x => exact fun e' as hd => by cases (dt e' as).out <;> simp [next]
  | _ => simp

/-- One round: the next one, or a result that is `false` only in time. -/
theorem timely_loop {api : σ → Api} {body : σ → Ans → M (σ ⊕ Bool)} {s : σ}
    (h : ∀ s a b, D ⟨api s, a⟩ → W D (seen why) (seen why b ⟨api s, a⟩) a.err (body s a) (fun o b' => o = .ret (.inr false) → b' = true)) :
    Timely D why (loop api body s) := by
  intro e b
  refine w_loop (fun _ _ => True) trivial (by simp) (fun s b a _ hd => w_mono (h s a b hd) (fun o b' h => ?_))
  cases o with
  | ret x => cases x <;> simp_all [next]
  | _ => simp [next]

theorem w_unless {m : M α} {f : α → M β} {e : UInt32} {b : Bool} {Q : Out β → Bool → Prop} (hQ : ∀ o b', (∀ x, o ≠ .ret x) → Q o b')
    (hf : ∀ a e' b', W D (seen why) b' e' (f a) Q) : W D (seen why) b e (m >>= f) Q := by
  refine w_bind (fun as hd => ?_)
  cases (m e as).out with
  | ret a => exact fun e' => hf a e' _
  | _ => exact hQ _ _ (by simp)

end

section
variable (c : Cfg) (bug : Bool) (extra D : Call → Prop) (t : Int)

theorem timely_condTimedWait : Timely D unavailable (condTimedWait c) := by
  intro e b
  unfold condTimedWait
  refine w_pthread_bind (by simp) (fun r hr => by simp [seen, unavailable, hr]) (fun r hr hr' e' => ?_)
  split
  · rename_i h; refine w_pure ?_; simp [seen, unavailable, h, ETIMEDOUT]
  · split
    · exact w_throw (by simp)
    · exact w_pure (by simp)

/-- Whether the last call was a wait that ended before its time. -/
def Told (m : M Bool) : Prop :=
  ∀ e, W D (fun _ c => woken c) false e m (fun o b => (o = .ret true → b = true) ∧ (o = .ret false → b = false))

theorem told_condTimedWait : Told D (condTimedWait c) := by
  intro e
  unfold condTimedWait
  refine w_pthread_bind (by simp) (fun r hr => by simp [woken, hr]) (fun r hr hr' e' => ?_)
  split
  · rename_i h; refine w_pure ?_; simp [woken, h, ETIMEDOUT]
  · split
    · exact w_throw (by simp)
    · rename_i h; refine w_pure ?_; simpa [woken] using h

theorem told_clockLoop {rel : Int → M Bool} (h : ∀ t, Told D (rel t)) (first : Bool) : Told D (clockLoop first rel) := by
  intro e
  unfold clockLoop
  refine w_loop (fun _ g => g = false) rfl (by simp) (fun s g a hg ha => ?_)
  split
  · exact w_pure (by simp [next, woken])
  · refine w_bind (w_mono (h _ _) (fun o g' h' => ?_))
    cases o with
    | ret b =>
      intro e'
      cases b
      · exact w_pure (h'.2 rfl)
      · exact w_pure ⟨fun _ => h'.1 rfl, by simp⟩
    | _ => simp [next]

theorem foldl_woken (l : List Call) (b : Bool) : l.foldl (fun _ c => woken c) b = (l.getLast?.map woken).getD b := by
  induction l generalizing b with
  | nil => rfl
  | cons x l ih =>
    rw [List.foldl_cons, ih, List.getLast?_cons]
    cases l.getLast? <;> rfl

theorem notified_of_told {bug : Bool} {extra : Call → Prop} {m : M Bool} (h : Told (fun c => Documented bug c ∧ extra c) m) :
    Fulfils bug extra Notified m := by
  intro e as hd
  have := h e as hd
  rw [foldl_woken] at this
  cases ho : (m e as).out with
  | ret b =>
    rw [ho] at this
    cases b
    · intro x hx
      have := this.2 rfl
      rw [hx] at this; exact this
    · have := this.1 rfl
      cases hx : (m e as).log.getLast? with
      | none => rw [hx] at this; cases this
      | some x => rw [hx] at this; exact ⟨x, hx, this⟩
  | _ => trivial

theorem timely_emuTimedWait : Timely D unavailable (emuTimedWait c) := by
  unfold emuTimedWait emuGuard
  refine timely_bind (fun _ => timely_guarded (timely_loop (fun s a b hd => ?_)))
  split
  · refine w_bind (w_mono (timely_condTimedWait c D _ _) (fun o b' h => ?_))
    cases o with
    | ret x =>
      intro e'
      cases x
      · have := h rfl
        subst this
        exact w_mono w_seen (fun o b h _ => h)
      · exact w_pure (by simp)
    | _ => simp [next]
  · exact w_pure (by simp)

theorem timely_timedMutexTimedLock : Timely D unavailable (timedMutexTimedLock c) := by
  unfold timedMutexTimedLock
  split
  · intro e b
    refine w_pthread_bind (by simp) (fun r hr => by simp [seen, unavailable, hr]) (fun r hr hr' e' => ?_)
    split
    · exact w_pure (by simp)
    · split
      · exact w_throw (by simp)
      · rename_i h; refine w_pure ?_; simp [seen, unavailable, ETIMEDOUT] at h ⊢; simp [h]
  · unfold pthreadGuard
    refine timely_bind (fun _ => timely_guarded (timely_loop (fun s a b hd => ?_)))
    split
    · refine w_pthread_bind (by simp) (fun r hr => by simp [seen, unavailable, hr]) (fun r hr hr' e' => ?_)
      split
      · rename_i h
        refine w_sys_bind (by simp) (fun _ _ => w_pure ?_)
        simp [seen, unavailable, h, ETIMEDOUT]
      · split
        · exact w_throw (by simp)
        · exact w_pure (by simp)
    · exact w_pure (by simp)

theorem timely_wmutexWaitAbs : Timely (fun c => Documented bug c ∧ extra c) unavailable wmutexWaitAbs := by
  unfold wmutexWaitAbs
  refine timely_loop (fun s a b hd => ?_)
  dsimp only
  split
  · exact w_err_bind (w_throw_bind (by simp))
  · split
    · refine w_unless (fun o b' h h' => absurd h' (h _)) (fun a e' b' => w_pure ?_)
      cases a <;> simp
    · split
      · rename_i h
        refine w_sys_bind (by simp) (fun _ _ => w_pure ?_)
        simp [seen, unavailable, h]
      · exact w_verify_bind (by simp) (by simp)

theorem timely_wmutexPrivTimedAbs : Timely (fun c => Documented bug c ∧ extra c) unavailable wmutexPrivTimedAbs := by
  unfold wmutexPrivTimedAbs
  refine timely_bind (fun _ => timely_bind (fun w => ?_))
  split
  · exact timely_true
  · refine timely_rethrowing ?_
    unfold wmutexTryAbs
    refine timely_bind (fun _ => timely_bind (fun _ => timely_bind (fun r => ?_)))
    dsimp only
    split
    · exact timely_bind (fun _ => timely_bind (fun _ => timely_wmutexWaitAbs bug extra))
    · exact timely_wmutexWaitAbs bug extra

theorem timely_wmutexWaitRel (ht : t > 0) : Timely D unavailable (wmutexWaitRel t) := by
  unfold wmutexWaitRel
  rw [if_pos ht]
  refine timely_loop (fun s a b hd => ?_)
  split
  · refine w_unless (fun o b' h h' => absurd h' (h _)) (fun a e' b' => w_pure ?_)
    cases a <;> simp
  · split
    · rename_i h
      refine w_pure ?_
      simp [seen, unavailable, h, waitTimeout]
    · exact w_err_bind (w_throw (by simp))

theorem timely_wmutexPrivTimedRel (ht : t > 0) : Timely D unavailable (wmutexPrivTimedRel t) := by
  unfold wmutexPrivTimedRel
  refine timely_bind (fun _ => timely_bind (fun w => ?_))
  split
  · exact timely_true
  · refine timely_rethrowing ?_
    unfold wmutexTryRel
    exact timely_bind (fun _ => timely_bind' (timely_wmutexWaitRel D t ht) timely_true)

theorem timely_wmutexTimedLock {m : M Bool} (h : Timely D unavailable m) : Timely D unavailable (wmutexTimedLock m) := by
  unfold wmutexTimedLock
  refine timely_bind (fun b => ?_)
  split
  · exact timely_true
  · exact h

theorem timely_wcvWaitRel (ht : t > 0) : Timely D unavailable (wcvWaitRel t) := by
  unfold wcvWaitRel
  rw [if_pos ht]
  refine timely_loop (fun s a b hd => ?_)
  split
  · refine w_unless (fun o b' h h' => absurd h' (h _)) (fun a e' b' => w_pure ?_)
    by_cases h : a.res > 0 <;> simp [h]
  · split
    · rename_i h
      refine w_pure ?_
      simp [seen, unavailable, h, waitTimeout]
    · unfold waitFailure
      refine w_err_bind (w_unless (fun o b' h h' => absurd h' (h _)) (fun a e' b' => w_throw (by simp)))

theorem timely_wcvWaiting {m : M Bool} (h : Timely D unavailable m) : Timely D unavailable (wcvWaiting m) := by
  unfold wcvWaiting
  exact timely_bind (fun _ => timely_bind (fun _ => timely_guarded h))

theorem timely_wcvTimedRel (ht : t > 0) : Timely D unavailable (wcvTimedRel t) := by
  unfold wcvTimedRel wcvPrivTimedRel
  refine timely_wcvWaiting D ?_
  exact timely_bind' (timely_wcvWaitRel D t ht) timely_true

theorem timely_wcvTimedAbs : Timely (fun c => Documented bug c ∧ extra c) unavailable wcvTimedAbs := by
  unfold wcvTimedAbs
  have h : Timely (fun c => Documented bug c ∧ extra c) unavailable (wcvWaiting wcvPrivTimedAbs) := by
    refine timely_wcvWaiting _ ?_
    unfold wcvPrivTimedAbs
    refine timely_loop (fun s a b hd => ?_)
    split
    · unfold waitFailure
      refine w_err_bind (w_unless (fun o b' h h' => absurd h' (h _)) (fun a e' b' => w_throw (by simp)))
    · split
      · refine w_unless (fun o b' h h' => absurd h' (h _)) (fun a e' b' => w_pure ?_)
        by_cases h : a.res > 0 <;> simp [h]
      · split
        · rename_i h
          have : seen unavailable b ⟨.WaitForMultipleObjects .cv, a⟩ = true := by simp [seen, unavailable, h]
          rw [this]
          exact w_mono w_seen (fun _ _ h _ => h)
        · exact w_verify_bind (by simp) (by simp)
  refine timely_bind (fun _ => timely_bind (fun r => ?_))
  dsimp only
  split
  · exact timely_bind (fun _ => timely_bind (fun _ => h))
  · exact h

theorem timely_clockLoop {rel : Int → M Bool} (first : Bool) : Timely D expired (clockLoop first rel) := by
  unfold clockLoop
  refine timely_loop (fun s a b hd => ?_)
  split
  · rename_i h
    refine w_pure ?_
    simp [seen, expired, h]
  · refine w_unless (fun o b' h h' => absurd h' (h _)) (fun x e' b' => w_pure ?_)
    cases x <;> simp

end

end Verif.Failures.Trace
