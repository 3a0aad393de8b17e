import Verif.Proof.FailureRules
import Verif.Proof.FailureTable

/-! The contracts of the functions of `Verif.Model.Failures`. -/

namespace Verif.Failures.Proof

open Verif.OsCall Verif.Spec.Failures

/-- `Reported`, for functions in which only the calls `th` lead to exceptions. -/
def kT (bug debug : Bool) (extra X : Call → Prop) (th : Api → Bool) : K where
  D := fun c => Documented bug c ∧ extra c
  N := fun c => mustThrow c ≠ none ∨ (debug = true ∧ misused c = true)
  T := fun c => if th c.api then mustThrow c else none
  A := fun c => debug = true ∧ misused c = true
  X := X

/-- All calls may lead to exceptions. -/
abbrev allOf : Api → Bool := fun _ => true
/-- None may. -/
abbrev noneOf : Api → Bool := fun _ => false

theorem fulfils_of_rep {α : Type} {bug debug : Bool} {extra X : Call → Prop} {th : Api → Bool} {m : M α} (h : Rep (kT bug debug extra X th) m) :
    Fulfils bug extra (Reported X debug) m := by
  intro e as hd
  have := h e as hd
  rw [List.nil_append] at this
  cases ho : (m e as).out with
  | pending => trivial
  | ret a =>
    rw [ho] at this
    intro c hc
    have := this c hc
    simp only [kT, not_or, not_and, Classical.not_not, Bool.not_eq_true] at this
    exact this
  | threw x =>
    rw [ho] at this
    obtain ⟨c, hc, h⟩ := this
    simp only [kT] at h
    split at h
    · exact ⟨c, hc, h⟩
    · contradiction
  | assertion => rw [ho] at this; obtain ⟨c, hc, h1, h2⟩ := this; exact ⟨h1, c, hc, h2⟩
  | terminated => rw [ho] at this; exact this

/-- `Noticed`, for functions in which only the calls `th` lead to exceptions. -/
def kN (bug debug : Bool) (th : Api → Bool) : K where
  D := fun c => Documented bug c ∧ always c
  N := fun c => debug = true ∧ (mustThrow c ≠ none ∨ misused c = true)
  T := fun c => if th c.api then mustThrow c else none
  A := fun c => debug = true ∧ (mustThrow c ≠ none ∨ misused c = true)
  X := never

theorem noticed_of_rep {α : Type} {bug debug : Bool} {th : Api → Bool} {m : M α} (h : Rep (kN bug debug th) m) :
    Fulfils bug always (Noticed debug) m := by
  intro e as hd
  have := h e as hd
  rw [List.nil_append] at this
  cases ho : (m e as).out with
  | pending => trivial
  | ret a =>
    rw [ho] at this
    intro hdb c hc
    have := this c hc
    simp only [kN, not_or, not_and, Classical.not_not, Bool.not_eq_true] at this
    exact this hdb
  | threw x =>
    rw [ho] at this
    obtain ⟨c, hc, h⟩ := this
    simp only [kN] at h
    split at h
    · exact ⟨c, hc, h⟩
    · contradiction
  | assertion => rw [ho] at this; obtain ⟨c, hc, h1, h2⟩ := this; exact ⟨h1, c, hc, h2⟩
  | terminated => rw [ho] at this; obtain ⟨_, _, h⟩ := this; exact h.elim

theorem safe_of_rep {α : Type} {bug debug : Bool} {extra X : Call → Prop} {m : M α} (h : Rep (kT bug debug extra X noneOf) m) :
    Fulfils bug extra (Safe X debug) m := by
  intro e as hd
  refine ⟨fulfils_of_rep h e as hd, fun x hx => ?_⟩
  have := h e as hd
  rw [hx] at this
  obtain ⟨c, _, hc⟩ := this
  simp [kT] at hc

section
variable {α β : Type} {bug debug : Bool} {extra X : Call → Prop} {th : Api → Bool} {l : List Call} {e : UInt32}

theorem s_weaken {th' : Api → Bool} {m : M α} (h : S (kT bug debug extra X th') l e m) (ht : ∀ a, th' a = true → th a = true) :
    S (kT bug debug extra X th) l e m := by
  intro as hd
  have := h as hd
  cases ho : (m e as).out with
  | threw x =>
    rw [ho] at this
    obtain ⟨c, hc, h⟩ := this
    refine ⟨c, hc, ?_⟩
    simp only [kT] at h ⊢
    split at h
    · rename_i h'; rw [if_pos (ht _ h')]; exact h
    · contradiction
  | pending => trivial
  | ret a => rw [ho] at this; exact this
  | assertion => rw [ho] at this; exact this
  | terminated => rw [ho] at this; exact this

theorem rep_weaken {m : M α} (h : Rep (kT bug debug extra X noneOf) m) : Rep (kT bug debug extra X th) m :=
  fun e => s_weaken (h e) (fun _ h => by cases h)

theorem s_noexcept0 {m : M α} (h : S (kT bug debug extra X noneOf) l e m) : S (kT bug debug extra X th) l e (noexcept m) :=
  s_noexcept (T' := (kT bug debug extra X noneOf).T) h (fun _ _ h => by simp [kT] at h)

theorem s_noexceptX (th' : Api → Bool) {m : M α} (h : S (kT bug debug extra X th') l e m)
    (hX : ∀ c, th' c.api = true → mustThrow c ≠ none → X c) : S (kT bug debug extra X th) l e (noexcept m) :=
  s_noexcept (T' := (kT bug debug extra X th').T) h (fun c x h => hX c (by simp only [kT] at h; split at h; assumption; contradiction)
    (by simp only [kT] at h; split at h; (rw [h]; simp); contradiction))

theorem sn_noexcept0 {m : M α} (h : S (kN bug debug noneOf) l e m) : S (kN bug debug th) l e (noexcept m) :=
  s_noexcept (T' := (kN bug debug noneOf).T) h (fun _ _ h => by simp [kN] at h)

theorem sn_guarded0 {m : M α} {d : M Unit} (h : S (kN bug debug th) l e m) (hd : Rep (kN bug debug noneOf) d) :
    S (kN bug debug th) l e (guarded m d) :=
  s_guarded (T' := (kN bug debug noneOf).T) h hd (fun _ _ h => by simp [kN] at h)

theorem s_guarded0 {m : M α} {d : M Unit} (h : S (kT bug debug extra X th) l e m) (hd : Rep (kT bug debug extra X noneOf) d) :
    S (kT bug debug extra X th) l e (guarded m d) :=
  s_guarded (T' := (kT bug debug extra X noneOf).T) h hd (fun _ _ h => by simp [kT] at h)

theorem s_guardedX (th' : Api → Bool) {m : M α} {d : M Unit} (h : S (kT bug debug extra X th) l e m)
    (hd : Rep (kT bug debug extra X th') d) (hX : ∀ c, th' c.api = true → mustThrow c ≠ none → th c.api = true ∧ X c) :
    S (kT bug debug extra X th) l e (guarded m d) :=
  s_guarded (T' := (kT bug debug extra X th').T) h hd (fun c x h => by
    simp only [kT] at h ⊢
    split at h
    · rename_i h'
      have := hX c h' (by rw [h]; simp)
      exact ⟨by rw [if_pos this.1]; exact h, this.2⟩
    · contradiction)

end

macro "wp_simp" : tactic => `(tactic| simp_all [kT, kN, waitCls, EINTR, EBUSY, EAGAIN, EINVAL, ETIMEDOUT,
  EOVERFLOW, waitFailed, waitTimeout, tlsOutOfIndexes, KERN_INVALID_ARGUMENT, KERN_ABORTED, KERN_TERMINATED, KERN_OPERATION_TIMED_OUT])

macro "wp_done" : tactic => `(tactic| first | (wp_simp; done) | (wp_simp; grind) | (simp [kT, kN, waitCls, EINTR, EBUSY, EAGAIN, EINVAL, ETIMEDOUT,
  EOVERFLOW, waitFailed, waitTimeout, tlsOutOfIndexes, KERN_INVALID_ARGUMENT, KERN_ABORTED, KERN_TERMINATED, KERN_OPERATION_TIMED_OUT] at *; grind))

macro "wp_step" : tactic => `(tactic| with_reducible first
  | (apply s_skip_bind; · (intro r; simp [kT, kN]; done)
     intro r hr; try dsimp only)
  | (apply s_sys_bind; intro r hr; try dsimp only)
  | (apply s_pthread_bind; · (intro r hr; simp [kT, kN, hr, EINTR]; done)
     intro r hr hr' e'; try dsimp only)
  | (apply s_err_bind; try dsimp only)
  | apply s_throw_bind
  | apply s_throw
  | (apply s_pure_bind; try dsimp only)
  | apply s_pure
  | refine s_verify_bind ?_ (fun hv => ?_)
  | apply s_verify
  | (apply s_sys; intro r hr)
  | apply s_noexcept0
  | apply sn_noexcept0
  | (refine sn_guarded0 ?_ (by assumption))
  | (refine s_guarded0 ?_ (by assumption))
  | (refine s_rethrowing ?_ (by assumption))
  | (refine s_bind (by assumption) ?_; intro a e'; try dsimp only)
  | (refine s_rep (by assumption) ?_)
  | (refine s_bind (rep_loop ?_ _) ?_ <;> (intros; try dsimp only))
  | (refine s_rep (rep_loop ?_ _) ?_ <;> (intros; try dsimp only))
  | split)

macro "wp" : tactic => `(tactic| (repeat' wp_step; all_goals first | wp_done | skip))

section
variable (c : Cfg) (bug debug : Bool) (extra X : Call → Prop) (th : Api → Bool)

theorem rep_mutexCtor : Rep (kT bug debug extra X allOf) (mutexCtor) := by
  intro e
  unfold mutexCtor
  wp

theorem rep_condCtor : Rep (kT bug debug extra X allOf) (condCtor) := by
  intro e
  unfold condCtor
  wp

theorem rep_semCtor : Rep (kT bug debug extra X allOf) (semCtor) := by
  intro e
  unfold semCtor
  wp

theorem rep_eventCtor : Rep (kT bug debug extra X allOf) (eventCtor) := by
  intro e
  unfold eventCtor
  wp

theorem rep_eventSet : Rep (kT bug debug extra X allOf) (eventSet) := by
  intro e
  unfold eventSet
  wp

theorem rep_eventReset : Rep (kT bug debug extra X allOf) (eventReset) := by
  intro e
  unfold eventReset
  wp

theorem rep_eventWait : Rep (kT bug debug extra X allOf) (eventWait) := by
  intro e
  unfold eventWait
  wp

theorem rep_eventTryWait : Rep (kT bug debug extra X allOf) (eventTryWait) := by
  intro e
  unfold eventTryWait
  wp

theorem rep_wsemCtor : Rep (kT bug debug extra X allOf) (wsemCtor) := by
  intro e
  unfold wsemCtor
  wp

theorem rep_wsemWait : Rep (kT bug debug extra X allOf) (wsemWait) := by
  intro e
  unfold wsemWait
  wp

theorem rep_wsemTryWait : Rep (kT bug debug extra X allOf) (wsemTryWait) := by
  intro e
  unfold wsemTryWait
  wp

theorem rep_machCtor : Rep (kT bug debug extra X allOf) (machCtor) := by
  intro e
  unfold machCtor
  wp

theorem rep_machWait : Rep (kT bug debug extra X allOf) (machWait) := by
  intro e
  unfold machWait
  wp

theorem rep_autoHandleDuplicate : Rep (kT bug debug extra X allOf) (autoHandleDuplicate) := by
  intro e
  unfold autoHandleDuplicate
  wp

theorem rep_getEvent : Rep (kT bug debug extra X allOf) (getEvent) := by
  intro e
  unfold getEvent
  wp

theorem rep_ownSlot : Rep (kT bug debug extra X allOf) (ownSlot) := by
  intro e
  unfold ownSlot
  wp

theorem rep_queryKey : Rep (kT bug debug extra X allOf) (queryKey) := by
  have := rep_ownSlot bug debug extra X
  intro e
  unfold queryKey
  wp

theorem rep_timerInit : Rep (kT bug debug extra X allOf) (timerInit) := by
  have := rep_queryKey bug debug extra X
  intro e
  unfold timerInit
  wp

theorem rep_timerOnce : Rep (kT bug debug extra X allOf) (timerOnce) := by
  have := rep_timerInit bug debug extra X
  intro e
  unfold timerOnce
  wp

theorem rep_deleteCtx (w t h : Bool) : Rep (kT bug debug extra X noneOf) (deleteCtx w t h) := by
  intro e
  unfold deleteCtx
  wp

theorem s_ctxFailed {l : List Call} {e : UInt32} (w t h : Bool) (hl : ∃ c ∈ l, mustThrow c = some ⟨.resourceError, .os e⟩) :
    S (kT bug debug extra X allOf) l e (ctxFailed w t h) := by
  unfold ctxFailed
  refine s_err_bind (s_bind (rep_weaken (rep_deleteCtx bug debug extra X w t h)) (fun _ _ => s_throw ?_))
  obtain ⟨c, hc, h⟩ := hl
  exact ⟨c, hc, by simp only [kT, if_true]; exact h⟩

theorem rep_createCtx : Rep (kT bug debug extra X allOf) (createCtx) := by
  intro e
  unfold createCtx
  repeat' wp_step
  all_goals first | apply s_ctxFailed | skip
  all_goals wp_done

theorem rep_getWaitableTimer : Rep (kT bug debug extra X allOf) (getWaitableTimer) := by
  have := rep_timerOnce bug debug extra X
  have := rep_createCtx bug debug extra X
  intro e
  unfold getWaitableTimer
  wp

theorem rep_mutexLock : Rep (kT c.eintrBug c.debug extra X allOf) (mutexLock c) := by
  intro e
  unfold mutexLock
  wp

theorem rep_mutexTryLock : Rep (kT c.eintrBug c.debug extra X allOf) (mutexTryLock c) := by
  intro e
  unfold mutexTryLock
  wp

theorem rep_timedMutexCtor : Rep (kT c.eintrBug c.debug extra X allOf) (timedMutexCtor c) := by
  intro e
  unfold timedMutexCtor
  wp

theorem rep_condWait : Rep (kT c.eintrBug c.debug extra X allOf) (condWait c) := by
  intro e
  unfold condWait
  wp

theorem rep_condTimedWait : Rep (kT c.eintrBug c.debug extra X allOf) (condTimedWait c) := by
  intro e
  unfold condTimedWait
  wp

theorem rep_mutexDtor : Rep (kT c.eintrBug c.debug extra X noneOf) (mutexDtor c) := by
  intro e
  unfold mutexDtor
  wp

theorem rep_mutexUnlock : Rep (kT c.eintrBug c.debug extra X noneOf) (mutexUnlock c) := by
  intro e
  unfold mutexUnlock
  wp

theorem rep_timedMutexDtor : Rep (kT c.eintrBug c.debug extra X noneOf) (timedMutexDtor c) := by
  intro e
  unfold timedMutexDtor
  wp

theorem rep_condDtor : Rep (kT c.eintrBug c.debug extra X noneOf) (condDtor c) := by
  intro e
  unfold condDtor
  wp

theorem rep_condNotifyOne : Rep (kT c.eintrBug c.debug extra X noneOf) (condNotifyOne c) := by
  intro e
  unfold condNotifyOne
  wp

theorem rep_condNotifyAll : Rep (kT c.eintrBug c.debug extra X noneOf) (condNotifyAll c) := by
  intro e
  unfold condNotifyAll
  wp

theorem rep_semDtor : Rep (kT c.eintrBug c.debug extra X noneOf) (semDtor c) := by
  intro e
  unfold semDtor
  wp

theorem rep_eventDtor : Rep (kT c.eintrBug c.debug extra X noneOf) (eventDtor c) := by
  intro e
  unfold eventDtor
  wp

theorem rep_wsemDtor : Rep (kT c.eintrBug c.debug extra X noneOf) (wsemDtor c) := by
  intro e
  unfold wsemDtor
  wp

theorem rep_wmutexDtor : Rep (kT c.eintrBug c.debug extra X noneOf) (wmutexDtor c) := by
  intro e
  unfold wmutexDtor
  wp

theorem rep_machDtor : Rep (kT c.eintrBug c.debug extra X noneOf) (machDtor c) := by
  intro e
  unfold machDtor
  wp

theorem rep_machPost : Rep (kT c.eintrBug c.debug extra X noneOf) (machPost c) := by
  intro e
  unfold machPost
  wp

theorem rep_machPostAll : Rep (kT c.eintrBug c.debug extra X noneOf) (machPostAll c) := by
  intro e
  unfold machPostAll
  wp

theorem rep_timedMutexLock_native (h : c.timedlock = true) : Rep (kT c.eintrBug c.debug extra X allOf) (timedMutexLock c) := by
  intro e
  unfold timedMutexLock
  rw [if_pos h]
  wp

theorem rep_timedMutexTryLock_native (h : c.timedlock = true) : Rep (kT c.eintrBug c.debug extra X allOf) (timedMutexTryLock c) := by
  intro e
  unfold timedMutexTryLock
  rw [if_pos h]
  wp

theorem rep_timedMutexTimedLock_native (h : c.timedlock = true) : Rep (kT c.eintrBug c.debug extra X allOf) (timedMutexTimedLock c) := by
  intro e
  unfold timedMutexTimedLock
  rw [if_pos h]
  wp

theorem rep_timedMutexUnlock_native (h : c.timedlock = true) : Rep (kT c.eintrBug c.debug extra X noneOf) (timedMutexUnlock c) := by
  intro e
  unfold timedMutexUnlock
  rw [if_pos h]
  wp

/-- The destructor of `pthread_mutex_lock_guard` (pthread_mutex_locks.hpp 46-49). -/
theorem rep_pthreadUnlock : Rep (kN c.eintrBug c.debug noneOf) (noexcept (do
    let r ← pthread c .pthread_mutex_unlock
    verify c.debug (r == 0))) := by
  intro e
  wp

theorem sn_pthreadGuard {α : Type} {m : M α} {l : List Call} {e : UInt32} (h : Rep (kN c.eintrBug c.debug th) m) (hl : l = []) :
    S (kN c.eintrBug c.debug th) l e (pthreadGuard c m) := by
  subst hl
  have := rep_pthreadUnlock c
  have h1 : Rep (kN c.eintrBug c.debug th) (noexcept (do
      let r ← pthread c .pthread_mutex_lock
      verify c.debug (r == 0))) := by
    intro e
    wp
  unfold pthreadGuard
  refine s_bind h1 (fun _ e' => ?_)
  refine sn_guarded0 ?_ this
  exact s_rep h (by simp)

theorem rep_timedMutexLock_emulated (h : c.timedlock = false) : Rep (kN c.eintrBug c.debug noneOf) (timedMutexLock c) := by
  intro e
  unfold timedMutexLock
  rw [if_neg (by simp [h])]
  refine sn_pthreadGuard c _ ?_ rfl
  intro e
  wp

theorem rep_timedMutexTryLock_emulated (h : c.timedlock = false) : Rep (kN c.eintrBug c.debug noneOf) (timedMutexTryLock c) := by
  intro e
  unfold timedMutexTryLock
  rw [if_neg (by simp [h])]
  refine sn_pthreadGuard c _ ?_ rfl
  intro e
  wp

theorem rep_timedMutexTimedLock_emulated (h : c.timedlock = false) : Rep (kN c.eintrBug c.debug allOf) (timedMutexTimedLock c) := by
  intro e
  unfold timedMutexTimedLock
  rw [if_neg (by simp [h])]
  refine sn_pthreadGuard c _ ?_ rfl
  intro e
  wp

theorem rep_timedMutexUnlock_emulated (h : c.timedlock = false) : Rep (kN c.eintrBug c.debug noneOf) (timedMutexUnlock c) := by
  intro e
  unfold timedMutexUnlock
  rw [if_neg (by simp [h])]
  refine sn_noexcept0 ?_
  refine sn_pthreadGuard c _ ?_ rfl
  intro e
  wp

theorem rep_semPost : Rep (kT c.eintrBug c.debug extra X allOf) (semPost c) := by
  intro e
  unfold semPost
  wp

theorem rep_semWait : Rep (kT c.eintrBug c.debug noDeadlock X allOf) (semWait c) := by
  intro e
  unfold semWait
  repeat' wp_step
  all_goals simp only [noDeadlock, kT] at *
  all_goals wp_done

theorem rep_semTryWait : Rep (kT c.eintrBug c.debug noDeadlock X allOf) (semTryWait c) := by
  intro e
  unfold semTryWait
  repeat' wp_step
  all_goals simp only [noDeadlock, kT] at *
  all_goals wp_done

theorem rep_semTimedWait : Rep (kT c.eintrBug c.debug noDeadlock X allOf) (semTimedWait c) := by
  intro e
  unfold semTimedWait
  repeat' wp_step
  all_goals simp only [noDeadlock, kT] at *
  all_goals wp_done

theorem rep_semPost_noticed : Rep (kN c.eintrBug c.debug allOf) (semPost c) := by
  intro e
  unfold semPost
  wp

theorem rep_semWait_noticed : Rep (kN c.eintrBug c.debug allOf) (semWait c) := by
  intro e
  unfold semWait
  wp

theorem rep_semTryWait_noticed : Rep (kN c.eintrBug c.debug allOf) (semTryWait c) := by
  intro e
  unfold semTryWait
  wp

theorem rep_semTimedWait_noticed : Rep (kN c.eintrBug c.debug allOf) (semTimedWait c) := by
  intro e
  unfold semTimedWait
  wp

theorem rep_eventTimedRel (t : Int) : Rep (kT bug debug extra X allOf) (eventTimedRel t) := by
  intro e
  unfold eventTimedRel
  wp

theorem rep_eventTimedAbs : Rep (kT c.eintrBug c.debug extra X allOf) (eventTimedAbs c) := by
  have := rep_getWaitableTimer c.eintrBug c.debug extra X
  intro e
  unfold eventTimedAbs
  wp

theorem rep_wsemTimedRel (t : Int) : Rep (kT bug debug extra X allOf) (wsemTimedRel t) := by
  intro e
  unfold wsemTimedRel
  wp

theorem rep_wsemPost : Rep (kT bug debug onlyOverflow X allOf) (wsemPost) := by
  intro e
  unfold wsemPost
  repeat' wp_step
  all_goals simp only [onlyOverflow, kT] at *
  all_goals wp_done

theorem rep_wsemTimedAbs : Rep (kT c.eintrBug c.debug semWaitOk X allOf) (wsemTimedAbs c) := by
  have := rep_getWaitableTimer c.eintrBug c.debug semWaitOk X
  intro e
  unfold wsemTimedAbs
  repeat' wp_step
  all_goals simp only [semWaitOk, kT] at *
  all_goals wp_done

theorem rep_machTimedWait : Rep (kT bug debug notAborted X allOf) (machTimedWait) := by
  intro e
  unfold machTimedWait
  repeat' wp_step
  all_goals simp only [notAborted, kT] at *
  all_goals wp_done

theorem rep_dispatchDtor : Rep (kT bug debug extra X noneOf) (dispatchDtor) := by
  intro e
  unfold dispatchDtor
  wp

theorem rep_dispatchPost : Rep (kT bug debug extra X noneOf) (dispatchPost) := by
  intro e
  unfold dispatchPost
  wp

theorem rep_dispatchWait : Rep (kT bug debug extra X noneOf) (dispatchWait) := by
  intro e
  unfold dispatchWait
  wp

theorem rep_dispatchTimedWait : Rep (kT bug debug extra X noneOf) (dispatchTimedWait) := by
  intro e
  unfold dispatchTimedWait
  wp

theorem rep_dispatchSignals (n : Nat) : Rep (kT bug debug extra X noneOf) (dispatchSignals n) := by
  induction n with
  | zero => intro e; unfold dispatchSignals; wp
  | succ n ih => intro e; unfold dispatchSignals; wp

theorem rep_dispatchCtor (n : Nat) : Rep (kT bug debug extra X allOf) (dispatchCtor n) := by
  have : Rep (kT bug debug extra X allOf) (dispatchSignals n) := rep_weaken (rep_dispatchSignals bug debug extra X n)
  intro e
  unfold dispatchCtor
  wp

theorem rep_autoHandleReset (owns : Bool) : Rep (kT c.eintrBug c.debug extra X noneOf) (autoHandleReset c owns) := by
  intro e
  unfold autoHandleReset
  wp

theorem rep_wmutexTryLock : Rep (kT bug debug extra X th) wmutexTryLock := by
  intro e
  unfold wmutexTryLock
  wp

theorem rep_stillLocked : Rep (kT bug debug extra X th) stillLocked := by
  intro e
  unfold stillLocked
  wp

/-- The handlers `catch (...)` of basic_mutex_windows.hpp 178-182, timed_mutex_windows.hpp 157-161, 203-207. -/
theorem rep_mem : Rep (kT bug debug extra X th) (do let _ ← sys .mem) := by
  intro e
  wp

/-- The calls that fail when a mutex of Windows cannot be locked. -/
def lockCalls : Api → Bool
  | .CreateEvent | .waitInfinite .mutex => true
  | _ => false

/-- The call that fails when a mutex of Windows cannot be unlocked. -/
def eventCalls : Api → Bool
  | .CreateEvent => true
  | _ => false

theorem rep_getEvent_only : Rep (kT bug debug extra X eventCalls) getEvent := by
  intro e
  unfold getEvent
  repeat' wp_step
  all_goals simp only [eventCalls, kT] at *
  all_goals wp_done

theorem rep_wmutexPrivLock_only : Rep (kT bug debug extra X lockCalls) wmutexPrivLock := by
  have h1 := rep_stillLocked bug debug extra X lockCalls
  have h2 := rep_mem bug debug extra X lockCalls
  have h3 : Rep (kT bug debug extra X lockCalls) getEvent := fun e =>
    s_weaken (rep_getEvent_only bug debug extra X e) (fun a h => by cases a <;> simp_all [eventCalls, lockCalls])
  intro e
  unfold wmutexPrivLock
  repeat' wp_step
  all_goals simp only [lockCalls, kT] at *
  all_goals wp_done

theorem rep_wmutexLock_only : Rep (kT bug debug extra X lockCalls) wmutexLock := by
  have h1 := rep_wmutexTryLock bug debug extra X lockCalls
  have h2 := rep_wmutexPrivLock_only bug debug extra X
  intro e
  unfold wmutexLock
  wp

theorem rep_wmutexLock : Rep (kT bug debug extra X allOf) wmutexLock :=
  fun e => s_weaken (rep_wmutexLock_only bug debug extra X e) (fun _ _ => rfl)

theorem rep_wmutexUnlock (hw : debug = true → ∀ c, extra c → wakesUp c)
    (hX : ∀ r : Ans, r.res = 0 → X ⟨.CreateEvent, r⟩) : Rep (kT bug debug extra X noneOf) wmutexUnlock := by
  have h1 := rep_getEvent_only bug debug extra X
  have hn : ∀ r : Ans, (kT bug debug extra X eventCalls).D ⟨.SetEvent .mutex, r⟩ → ¬ (kT bug debug extra X eventCalls).N ⟨.SetEvent .mutex, r⟩ := by
    intro r hr h
    simp only [kT, mt_SetEvent_mutex, ms_SetEvent_mutex] at hr h
    rcases h with h | ⟨h, h'⟩
    · exact h rfl
    · have := hw h _ hr.2 (.inl rfl)
      simp at h' this
      exact this h'
  intro e
  unfold wmutexUnlock
  refine s_noexceptX eventCalls ?_ ?_
  · repeat' wp_step
    all_goals first | wp_done | skip
    all_goals intro c hc
    all_goals simp only [List.nil_append, List.mem_singleton] at hc
    all_goals subst hc
    all_goals exact hn _ (by assumption)
  · intro c hc hm
    obtain ⟨a, r⟩ := c
    cases a <;> simp_all [eventCalls]

/-! The timed mutex of Windows. -/

theorem rep_wmutexWaitAbs : Rep (kT bug debug extra X allOf) wmutexWaitAbs := by
  have h1 := rep_stillLocked bug debug extra X allOf
  intro e
  unfold wmutexWaitAbs
  wp

theorem rep_wmutexTryAbs : Rep (kT bug debug extra X allOf) wmutexTryAbs := by
  have h1 := rep_getEvent bug debug extra X
  have h2 := rep_getWaitableTimer bug debug extra X
  have h3 := rep_wmutexWaitAbs bug debug extra X
  intro e
  unfold wmutexTryAbs
  wp

theorem rep_wmutexPrivTimedAbs : Rep (kT bug debug extra X allOf) wmutexPrivTimedAbs := by
  have h1 := rep_wmutexTryAbs bug debug extra X
  have h2 := rep_mem bug debug extra X allOf
  have h3 := rep_stillLocked bug debug extra X allOf
  intro e
  unfold wmutexPrivTimedAbs
  wp

theorem rep_wmutexWaitRel (t : Int) : Rep (kT bug debug extra X allOf) (wmutexWaitRel t) := by
  have h1 := rep_stillLocked bug debug extra X allOf
  intro e
  unfold wmutexWaitRel
  wp

theorem rep_wmutexTryRel (t : Int) : Rep (kT bug debug extra X allOf) (wmutexTryRel t) := by
  have h1 := rep_getEvent bug debug extra X
  have h2 := rep_wmutexWaitRel bug debug extra X t
  intro e
  unfold wmutexTryRel
  wp

theorem rep_wmutexPrivTimedRel (t : Int) : Rep (kT bug debug extra X allOf) (wmutexPrivTimedRel t) := by
  have h1 := rep_wmutexTryRel bug debug extra X t
  have h2 := rep_mem bug debug extra X allOf
  have h3 := rep_stillLocked bug debug extra X allOf
  intro e
  unfold wmutexPrivTimedRel
  wp

theorem rep_wmutexTimedLock {m : M Bool} (h : Rep (kT bug debug extra X allOf) m) :
    Rep (kT bug debug extra X allOf) (wmutexTimedLock m) := by
  have h1 := rep_wmutexTryLock bug debug extra X allOf
  intro e
  unfold wmutexTimedLock
  wp

theorem rep_clockLoop {rel : Int → M Bool} (h : ∀ t, Rep (kT bug debug extra X th) (rel t)) (first : Bool) :
    Rep (kT bug debug extra X th) (clockLoop first rel) := by
  intro e
  unfold clockLoop
  refine s_rep (rep_loop ?_ _) (by simp)
  intro s a ha
  have h' := h (a.res.toNat : Int)
  wp

/-! The condition variable of Windows. -/

/-- A failed call in `lock` terminates functions that are `noexcept`, one in `unlock` always does. -/
theorem rep_withInternal {α : Type} {m : M α} (hw : debug = true → ∀ c, extra c → wakesUp c)
    (hX : ∀ r : Ans, r.res = 0 → X ⟨.CreateEvent, r⟩) (hl : ∀ a, lockCalls a = true → th a = true)
    (h : Rep (kT bug debug extra X th) m) : Rep (kT bug debug extra X th) (withInternal m) := by
  intro e
  unfold withInternal
  refine s_bind (fun e => s_weaken (rep_wmutexLock_only bug debug extra X e) hl) (fun _ e' => ?_)
  refine s_guarded0 (h e') (fun e => s_noexcept0 (rep_wmutexUnlock bug debug extra X hw hX e))

theorem rep_newWaiter : Rep (kT bug debug extra X allOf) newWaiter := by
  intro e
  unfold newWaiter
  wp

theorem rep_wakeWaiters (hw : debug = true → ∀ c, extra c → wakesUp c) (n : Nat) : Rep (kT bug debug extra X noneOf) (wakeWaiters n) := by
  have hn : ∀ r : Ans, (kT bug debug extra X noneOf).D ⟨.ReleaseSemaphore .cv, r⟩ →
      ¬ (kT bug debug extra X noneOf).N ⟨.ReleaseSemaphore .cv, r⟩ := by
    intro r hr h
    simp only [kT, mt_ReleaseSemaphore_cv, ms_ReleaseSemaphore_cv] at hr h
    rcases h with h | ⟨h, h'⟩
    · exact h rfl
    · have := hw h _ hr.2 (.inr rfl)
      simp at h' this
      exact this h'
  intro e
  unfold wakeWaiters
  repeat' wp_step
  all_goals first | wp_done | skip
  all_goals intro c hc
  all_goals simp only [List.cons_append, List.nil_append, List.mem_singleton, List.mem_cons, List.not_mem_nil, or_false] at hc
  all_goals rcases hc with rfl | rfl
  all_goals first | exact hn _ (by assumption) | simp [kT]

theorem rep_wcvNotify_body (hw : debug = true → ∀ c, extra c → wakesUp c) (f : UInt32 → Nat) :
    Rep (kT bug debug extra X lockCalls) (do
      let total ← sys .mem
      if total.res = 0 then pure () else wakeWaiters (f total.res)) := by
  have h1 : ∀ n, Rep (kT bug debug extra X lockCalls) (wakeWaiters n) := fun n => rep_weaken (rep_wakeWaiters bug debug extra X hw n)
  intro e
  refine s_skip_bind (by simp [kT]) (fun r _ => ?_)
  have := h1 (f r.res)
  wp

theorem rep_wcvNotifyOne (hw : debug = true → ∀ c, extra c → wakesUp c)
    (hX : ∀ c, lockCalls c.api = true → mustThrow c ≠ none → X c) : Rep (kT bug debug extra X noneOf) wcvNotifyOne := by
  have h1 := rep_withInternal bug debug extra X lockCalls hw (fun r hr => hX ⟨.CreateEvent, r⟩ rfl (by simp [hr])) (fun _ h => h)
    (rep_wcvNotify_body bug debug extra X hw (fun _ => 1))
  intro e
  unfold wcvNotifyOne
  refine s_noexceptX lockCalls ?_ hX
  wp

theorem rep_wcvNotifyAll (hw : debug = true → ∀ c, extra c → wakesUp c)
    (hX : ∀ c, lockCalls c.api = true → mustThrow c ≠ none → X c) : Rep (kT bug debug extra X noneOf) wcvNotifyAll := by
  have h1 := rep_withInternal bug debug extra X lockCalls hw (fun r hr => hX ⟨.CreateEvent, r⟩ rfl (by simp [hr])) (fun _ h => h)
    (rep_wcvNotify_body bug debug extra X hw (fun r => r.toNat))
  intro e
  unfold wcvNotifyAll
  refine s_noexceptX lockCalls ?_ hX
  wp

section cv
variable (hw : debug = true → ∀ c, extra c → wakesUp c) (hX : ∀ r : Ans, r.res = 0 → X ⟨.CreateEvent, r⟩)
include hw hX

theorem rep_initiateWait : Rep (kT bug debug extra X allOf) initiateWait := by
  unfold initiateWait
  refine rep_withInternal bug debug extra X allOf hw hX (fun _ _ => rfl) ?_
  have h1 := rep_newWaiter bug debug extra X
  intro e
  wp

theorem s_waitFailure {α : Type} {l : List Call} {e : UInt32} (hl : ∃ c ∈ l, mustThrow c = some ⟨.waitError, .os e⟩) :
    S (kT bug debug extra X allOf) l e (waitFailure : M α) := by
  have h1 := rep_withInternal bug debug extra X allOf hw hX (fun _ _ => rfl) (rep_mem bug debug extra X allOf)
  unfold waitFailure
  refine s_err_bind (s_bind h1 (fun _ _ => s_throw ?_))
  obtain ⟨c, hc, h⟩ := hl
  exact ⟨c, hc, by simp only [kT, if_true]; exact h⟩

theorem rep_internalMem : Rep (kT bug debug extra X allOf) (withInternal (sys .mem)) := by
  refine rep_withInternal bug debug extra X allOf hw hX (fun _ _ => rfl) ?_
  intro e
  wp

theorem rep_wcvPrivWait : Rep (kT bug debug extra X allOf) wcvPrivWait := by
  have h1 := rep_internalMem bug debug extra X hw hX
  intro e
  unfold wcvPrivWait
  repeat' wp_step
  all_goals first | apply s_waitFailure bug debug extra X hw hX | skip
  all_goals wp_done

theorem rep_wcvWaitRel (t : Int) : Rep (kT bug debug extra X allOf) (wcvWaitRel t) := by
  have h1 := rep_internalMem bug debug extra X hw hX
  intro e
  unfold wcvWaitRel
  repeat' wp_step
  all_goals first | apply s_waitFailure bug debug extra X hw hX | skip
  all_goals wp_done

theorem rep_wcvPrivTimedRel (t : Int) : Rep (kT bug debug extra X allOf) (wcvPrivTimedRel t) := by
  have h1 := rep_internalMem bug debug extra X hw hX
  have h2 := rep_wcvWaitRel bug debug extra X hw hX t
  intro e
  unfold wcvPrivTimedRel
  wp

theorem rep_wcvPrivTimedAbs : Rep (kT bug debug extra X allOf) wcvPrivTimedAbs := by
  have h1 := rep_internalMem bug debug extra X hw hX
  intro e
  unfold wcvPrivTimedAbs
  repeat' wp_step
  all_goals first | apply s_waitFailure bug debug extra X hw hX | skip
  all_goals wp_done

end cv

/-- The calls of `lock` and of `unlock` of the user's object. -/
def userLocks : Api → Bool
  | .userLock => true
  | _ => false
@[inherit_doc userLocks] def userUnlocks : Api → Bool
  | .userUnlock => true
  | _ => false

theorem rep_userLock : Rep (kT bug debug extra X userLocks) userLock := by
  intro e
  unfold userLock
  repeat' wp_step
  all_goals simp only [userLocks, kT] at *
  all_goals wp_done

theorem rep_userUnlock : Rep (kT bug debug extra X userUnlocks) userUnlock := by
  intro e
  unfold userUnlock
  repeat' wp_step
  all_goals simp only [userUnlocks, kT] at *
  all_goals wp_done

theorem rep_wcvWaiting {α : Type} {m : M α} (hw : debug = true → ∀ c, extra c → wakesUp c) (hX : ∀ r : Ans, r.res = 0 → X ⟨.CreateEvent, r⟩)
    (hl : ∀ r : Ans, r.res ≠ 0 → X ⟨.userLock, r⟩) (hu : ∀ r : Ans, r.res ≠ 0 → X ⟨.userUnlock, r⟩)
    (h : Rep (kT bug debug extra X allOf) m) : Rep (kT bug debug extra X allOf) (wcvWaiting m) := by
  intro e
  unfold wcvWaiting
  refine s_bind (rep_initiateWait bug debug extra X hw hX) (fun _ e' => ?_)
  refine s_bind (fun e => s_noexceptX userUnlocks (rep_userUnlock bug debug extra X e) ?_) (fun _ e' => ?_)
  · intro c hc hm
    obtain ⟨a, r⟩ := c
    cases a <;> simp_all [userUnlocks]
  · refine s_guardedX userLocks (h e') (rep_userLock bug debug extra X) ?_
    intro c hc hm
    obtain ⟨a, r⟩ := c
    cases a <;> simp_all [userLocks]

theorem rep_wcvTimedAbs (hw : debug = true → ∀ c, extra c → wakesUp c) (hX : ∀ r : Ans, r.res = 0 → X ⟨.CreateEvent, r⟩)
    (hl : ∀ r : Ans, r.res ≠ 0 → X ⟨.userLock, r⟩) (hu : ∀ r : Ans, r.res ≠ 0 → X ⟨.userUnlock, r⟩) :
    Rep (kT bug debug extra X allOf) wcvTimedAbs := by
  have h1 := rep_wcvWaiting bug debug extra X hw hX hl hu (rep_wcvPrivTimedAbs bug debug extra X hw hX)
  have h2 := rep_getWaitableTimer bug debug extra X
  intro e
  unfold wcvTimedAbs
  wp

/-! Functions built from the above. -/

/-- `sem_post`. -/
def semPosts : Api → Bool
  | .sem_post => true
  | _ => false

theorem rep_semPost_only : Rep (kT c.eintrBug c.debug extra X semPosts) (semPost c) := by
  intro e
  unfold semPost
  repeat' wp_step
  all_goals simp only [semPosts, kT] at *
  all_goals wp_done

theorem rep_autoSemPost (th' : Api → Bool) {m : M Unit} (h : Rep (kT bug debug extra X th') m)
    (hX : ∀ c, th' c.api = true → mustThrow c ≠ none → X c) : Rep (kT bug debug extra X noneOf) (autoSemPost m) := by
  intro e
  unfold autoSemPost
  refine s_noexceptX th' ?_ hX
  wp

theorem rep_autoSemWait {m : M Unit} (h : Rep (kT bug debug extra X th) m) : Rep (kT bug debug extra X th) (autoSemWait m) := by
  intro e
  unfold autoSemWait
  wp

theorem rep_autoSemTimedWait {m : M Bool} (h : Rep (kT bug debug extra X th) m) : Rep (kT bug debug extra X th) (autoSemTimedWait m) := by
  intro e
  unfold autoSemTimedWait
  wp

theorem rep_emuGuard {α : Type} {m : M α} (h : Rep (kT c.eintrBug c.debug extra X allOf) m) :
    Rep (kT c.eintrBug c.debug extra X allOf) (emuGuard c m) := by
  intro e
  unfold emuGuard
  refine s_bind (rep_mutexLock c extra X) (fun _ e' => ?_)
  exact s_guarded0 (h e') (fun e => s_noexcept0 (rep_mutexUnlock c extra X e))

theorem rep_emuPost (all : Bool) : Rep (kT c.eintrBug c.debug extra X allOf) (emuPost c all) := by
  refine rep_emuGuard c extra X ?_
  have h1 : Rep (kT c.eintrBug c.debug extra X allOf) (condNotifyAll c) := rep_weaken (rep_condNotifyAll c extra X)
  have h2 : Rep (kT c.eintrBug c.debug extra X allOf) (condNotifyOne c) := rep_weaken (rep_condNotifyOne c extra X)
  intro e
  wp

theorem rep_emuTryWait : Rep (kT c.eintrBug c.debug extra X allOf) (emuTryWait c) := by
  refine rep_emuGuard c extra X ?_
  intro e
  wp

theorem rep_emuWait : Rep (kT c.eintrBug c.debug extra X allOf) (emuWait c) := by
  refine rep_emuGuard c extra X ?_
  have h1 := rep_condWait c extra X
  intro e
  wp

theorem rep_emuTimedWait : Rep (kT c.eintrBug c.debug extra X allOf) (emuTimedWait c) := by
  refine rep_emuGuard c extra X ?_
  have h1 := rep_condTimedWait c extra X
  intro e
  wp

theorem rep_anyNotify (all : Bool) : Rep (kT c.eintrBug c.debug extra X allOf) (anyNotify c all) := by
  refine rep_emuGuard c extra X ?_
  cases all
  · exact rep_weaken (rep_condNotifyOne c extra X)
  · exact rep_weaken (rep_condNotifyAll c extra X)

theorem rep_anyWaiting {α : Type} {m : M α} (hl : ∀ r : Ans, r.res ≠ 0 → X ⟨.userLock, r⟩)
    (h : Rep (kT c.eintrBug c.debug extra X allOf) m) : Rep (kT c.eintrBug c.debug extra X allOf) (anyWaiting c m) := by
  have hu : Rep (kT c.eintrBug c.debug extra X noneOf) (noexcept (mutexUnlock c)) := fun e => s_noexcept0 (rep_mutexUnlock c extra X e)
  intro e
  unfold anyWaiting
  refine s_bind (rep_mutexLock c extra X) (fun _ e' => ?_)
  refine s_bind (fun e => s_rethrowing (s_weaken (rep_userUnlock _ _ extra X e) (fun _ _ => rfl)) (rep_weaken hu)) (fun _ e' => ?_)
  refine s_guardedX userLocks (s_guarded0 (h e') hu) (rep_userLock _ _ extra X) ?_
  intro c hc hm
  obtain ⟨a, r⟩ := c
  cases a <;> simp_all [userLocks]

end

end Verif.Failures.Proof
