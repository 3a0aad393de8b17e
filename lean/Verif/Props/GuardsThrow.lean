import Verif.Model.GuardsThrow
import Verif.Props.Guards

/-! C122: guards when a mutex cannot be unlocked. -/

namespace Verif.GuardsThrow

open Verif.Guards

/-- The execution `r'` is `r`, or the process was terminated on the way. -/
def CutShort (r' r : List Ev × Res) : Prop := r' = r ∨ (r'.2 = .terminate ∧ r'.1 <+: r.1)

theorem cut_dtor {r' r : List Ev × Res} {d' d : Bool → St → Res} (h : CutShort r' r) (hd : ∀ u s, d' u s = d u s ∨ d' u s = .terminate) :
    CutShort (r'.1, afterBody r'.2 d') (r.1, afterBody r.2 d) := by
  rcases h with rfl | ⟨h1, h2⟩
  · obtain ⟨es, r⟩ := r'
    cases r with
    | ok s => rcases hd false s with e | e
              · exact .inl (by simp only [afterBody, e])
              · exact .inr ⟨e, List.prefix_refl _⟩
    | exc s => rcases hd true s with e | e
               · exact .inl (by simp only [afterBody, e])
               · exact .inr ⟨e, List.prefix_refl _⟩
    | stuck | misuse | ub | terminate => exact .inl rfl
  · exact .inr ⟨by simp only [h1, afterBody], h2⟩

theorem guarded_or (f : Fails) (ctx : Ctx) (m : Nat) (d : Bool → St → Res) (u : Bool) (s : St) : guarded f ctx m d u s = d u s ∨ guarded f ctx m d u s = .terminate := by
  unfold guarded; split
  · exact .inr rfl
  · exact .inl rfl

theorem unique_or (f : Fails) (ctx : Ctx) (u : Bool) (s : St) : uniqueDtorT f ctx u s = uniqueDtor u s ∨ uniqueDtorT f ctx u s = .terminate := by
  unfold uniqueDtorT
  split
  · split
    · exact .inr rfl
    · exact .inl rfl
  · exact .inl rfl

/-- **C122**: whichever unlocking functions throw, a block with guards is executed as if none did, or the process is terminated on the way: what was observed until then is what
would have been observed.  No part of the program runs after an unlocking function of a guard has failed. -/
theorem C122_cut_short (f : Fails) (p : Prog) : ∀ (ctx : Ctx) (s : St), CutShort (runT f p ctx s) (run p ctx s) := by
  induction p with
  | skip | probe | throw_ => intro ctx s; exact .inl rfl
  | seq p q ihp ihq =>
    intro ctx s
    rcases ihp ctx s with e | ⟨h1, h2⟩
    · simp only [runT, run, e]
      generalize run p ctx s = r
      obtain ⟨es, r⟩ := r
      cases r
      case ok s' =>
        rcases ihq ctx s' with e | ⟨h1, h2⟩
        · exact .inl (by simp only [e])
        · exact .inr ⟨h1, (List.prefix_append_right_inj es).2 h2⟩
      all_goals exact .inl rfl
    · have hr : runT f (.seq p q) ctx s = runT f p ctx s := by
        simp only [runT]
        split
        · next e => rw [e] at h1; cases h1
        · rfl
      refine .inr ⟨by rw [hr, h1], ?_⟩
      rw [hr]
      refine h2.trans ?_
      simp only [run]
      split
      · next e => rw [e]; exact List.prefix_append _ _
      · exact List.prefix_refl _
  | tryCatch p q ihp ihq =>
    intro ctx s
    rcases ihp ctx s with e | ⟨h1, h2⟩
    · simp only [runT, run, e]
      generalize run p ctx s = r
      obtain ⟨es, r⟩ := r
      cases r
      case exc s' =>
        rcases ihq ctx s' with e | ⟨h1, h2⟩
        · exact .inl (by simp only [e])
        · exact .inr ⟨h1, (List.prefix_append_right_inj es).2 h2⟩
      all_goals exact .inl rfl
    · have hr : runT f (.tryCatch p q) ctx s = runT f p ctx s := by
        simp only [runT]
        split
        · next e => rw [e] at h1; cases h1
        · rfl
      refine .inr ⟨by rw [hr, h1], ?_⟩
      rw [hr]
      refine h2.trans ?_
      simp only [run]
      split
      · next e => rw [e]; exact List.prefix_append _ _
      · exact List.prefix_refl _
  | lockGuard m ad fails body ih =>
    intro ctx s
    simp only [runT, run]
    cases lockM m fails s with
    | threw | stuck => exact .inl rfl
    | got s₁ => exact cut_dtor (ih _ _) (guarded_or f ctx m _)
  | sharedGuard m ad fails body ih =>
    intro ctx s
    simp only [runT, run]
    cases lockSharedM m fails s with
    | threw | stuck => exact .inl rfl
    | got s₁ => exact cut_dtor (ih _ _) (guarded_or f ctx m _)
  | unlockGuard m fails body ih =>
    intro ctx s
    simp only [runT, run]
    cases unlockM m s with
    | none => exact .inl rfl
    | some s₁ =>
      dsimp only
      split
      · exact .inr ⟨rfl, List.nil_prefix⟩
      · exact cut_dtor (ih _ _) fun _ _ => .inl rfl
  | uniqueLock m fails body ih =>
    intro ctx s
    simp only [runT, run]
    cases lockM m fails s with
    | threw | stuck => exact .inl rfl
    | got s₁ => exact cut_dtor (ih _ _) (unique_or f ctx)
  | unlockLock i fails body ih =>
    intro ctx s
    simp only [runT, run]
    cases s.objs[i]? with
    | none => exact .inl rfl
    | some x =>
      obtain ⟨m, b⟩ := x
      cases b with
      | false => exact .inl rfl
      | true =>
        dsimp only
        cases unlockM m s with
        | none => exact .inl rfl
        | some s₁ =>
          dsimp only
          split
          · exact .inr ⟨rfl, List.nil_prefix⟩
          · exact cut_dtor (ih _ _) fun _ _ => .inl rfl

/-- **C122**: without unlock_guards of mutexes, whichever unlocking functions throw: at every point inside the mutexes are in the state promised by the guards, no destructor
unlocks a mutex that is not locked, and a block that is left at all leaves every mutex as it found it. -/
theorem C122_balanced (f : Fails) {p : Prog} (hp : NoRawUnlock p) (h : Nat → Held) :
    (∀ e ∈ (runT f p [] ⟨h, []⟩).1, Promised h e) ∧ (runT f p [] ⟨h, []⟩).2 ≠ .ub ∧
      ∀ s, (runT f p [] ⟨h, []⟩).2 = .ok s ∨ (runT f p [] ⟨h, []⟩).2 = .exc s → s.held = h ∧ s.objs = [] := by
  obtain ⟨h1, h2, h3⟩ := C57_balanced_locks hp h
  rcases C122_cut_short f p [] ⟨h, []⟩ with e | ⟨e1, e2⟩
  · rw [e]; exact ⟨h1, h2, h3⟩
  · refine ⟨fun e he => h1 e (e2.subset he), by rw [e1]; nofun, fun s hs => ?_⟩
    rw [e1] at hs
    rcases hs with hs | hs <;> cases hs

/-- **C122**: if the unlocking function called by the destructor of a lock_guard or shared_lock_guard fails the process is terminated, whether the block is left by an exception
or not, so nobody goes on with a mutex that is still locked. -/
theorem C122_terminates (f : Fails) (m : Nat) (ad : Bool) (body : Prog) (ctx : Ctx) (s : St) (hf : ∀ s, f ctx s m = true) :
    (∀ s', (runT f (.lockGuard m ad false body) ctx s).2 ≠ .ok s' ∧ (runT f (.lockGuard m ad false body) ctx s).2 ≠ .exc s') ∧
    (∀ s', (runT f (.sharedGuard m ad false body) ctx s).2 ≠ .ok s' ∧ (runT f (.sharedGuard m ad false body) ctx s).2 ≠ .exc s') := by
  have key : ∀ (r : Res) (d : Bool → St → Res) s', afterBody r (guarded f ctx m d) ≠ .ok s' ∧ afterBody r (guarded f ctx m d) ≠ .exc s' := by
    intro r d s'
    cases r <;> simp [afterBody, guarded, hf]
  constructor <;> intro s' <;> simp only [runT]
  · split
    · next e => simp only [lockM] at e; split at e <;> first | contradiction | (split at e <;> cases e)
    · exact ⟨nofun, nofun⟩
    · exact key _ _ s'
  · split
    · next e => simp only [lockSharedM] at e; split at e <;> first | contradiction | (split at e <;> cases e)
    · exact ⟨nofun, nofun⟩
    · exact key _ _ s'

/-- **C122**: if no unlocking function throws nothing is different. -/
theorem C122_otherwise_same (p : Prog) : ∀ (ctx : Ctx) (s : St), runT (fun _ _ _ => false) p ctx s = run p ctx s := by
  have hu : ∀ ctx, uniqueDtorT (fun _ _ _ => false) ctx = uniqueDtor := by
    intro ctx; funext u s; unfold uniqueDtorT; split <;> simp
  have hg : ∀ ctx m d, guarded (fun _ _ _ => false) ctx m d = d := by
    intro ctx m d; funext u s; simp [guarded]
  induction p with
  | skip | probe | throw_ => intro ctx s; rfl
  | seq p q ihp ihq => intro ctx s; simp only [runT, run, ihp, ihq]; rfl
  | tryCatch p q ihp ihq => intro ctx s; simp only [runT, run, ihp, ihq]; rfl
  | lockGuard m ad fails body ih => intro ctx s; simp only [runT, run, ih, hg]; rfl
  | sharedGuard m ad fails body ih => intro ctx s; simp only [runT, run, ih, hg]; rfl
  | unlockGuard m fails body ih => intro ctx s; simp only [runT, run, ih, Bool.false_eq_true, if_false]; rfl
  | uniqueLock m fails body ih => intro ctx s; simp only [runT, run, ih, hu]; rfl
  | unlockLock i fails body ih => intro ctx s; simp only [runT, run, ih, Bool.false_eq_true, if_false]; rfl

/-- A block with two guards in which the inner mutex cannot be unlocked: what is observed inside is observed, what follows is not. -/
example : let f : Fails := fun _ _ m => m == 1
    let p : Prog := .lockGuard 0 false false (.seq (.seq .probe (.sharedGuard 1 false false .probe)) .probe)
    NoRawUnlock p ∧ (runT f p [] ⟨fun _ => ⟨false, 0⟩, []⟩).1.length = 2 ∧ (runT f p [] ⟨fun _ => ⟨false, 0⟩, []⟩).2 = .terminate ∧
    (run p [] ⟨fun _ => ⟨false, 0⟩, []⟩).1.length = 3 := by
  refine ⟨by simp [NoRawUnlock], ?_, ?_, ?_⟩ <;>
    simp [runT, run, lockM, lockSharedM, unlockM, unlockSharedM, setHeld, afterBody, guarded, lockGuardDtor, sharedGuardDtor, leave]

/-- The mutex of a unique_lock that does not own it any more is not unlocked: the process goes on. -/
example : let f : Fails := fun ctx _ m => m == 0 && ctx.length == 0
    ∃ s, (runT f (.uniqueLock 0 false (.tryCatch (.unlockLock 0 true .skip) .probe)) [] ⟨fun _ => ⟨false, 0⟩, []⟩).2 = .ok s :=
  ⟨_, by simp [runT, lockM, unlockM, setHeld, afterBody, uniqueDtorT, uniqueDtor, unlockLockDtor, throwFromDtor, leave]; rfl⟩

end Verif.GuardsThrow
