import Verif.Props.Tss

/-! # C58, C60: what single calls on a thread_specific_ptr do -/

namespace Verif.Tss

/-- What `get()` returns if called by thread `t` now. -/
def Reads (cfg : Cfg) (s : St) (t o : Nat) (v : Option Nat) : Prop := step cfg s (t, .get o) = some (s, [.got t o v])

theorem reads_iff {cfg s t o v} : Reads cfg s t o v ↔
    ∃ th ob, s.threads[t]? = some th ∧ userCode th = true ∧ liveObj s o = some ob ∧ (getSpecific th ob.key).map Ptr.v = v := by
  unfold Reads step
  constructor
  · intro h
    dsimp only at h
    split at h
    · cases h
    next th ht =>
    split at h
    · next hu =>
      cases hl : liveObj s o with
      | none => rw [hl] at h; cases h
      | some ob =>
        rw [hl] at h
        simp only [Option.some.injEq, Prod.mk.injEq, List.cons.injEq, Ev.got.injEq, true_and, and_true] at h
        exact ⟨th, ob, ht, hu, rfl, h⟩
    · cases h
  · rintro ⟨th, ob, ht, hu, hl, rfl⟩
    simp only [ht, hu, if_true, hl]

theorem getSpecific_setSpecific {th : Thread} {k : Nat} {x : Option Ptr} : getSpecific (setSpecific th k x) k = x := by
  simp [getSpecific, setSpecific, getValue_setValue]

theorem userCode_setSpecific {th : Thread} {k : Nat} {x : Option Ptr} : userCode (setSpecific th k x) = userCode th := rfl

theorem liveObj_threads {s : St} {o : Nat} {l : List Thread} : liveObj { s with threads := l } o = liveObj s o := rfl

/-- After `reset(v)` the thread reads `v`. -/
theorem C58_reset_get {cfg s t o v s' es} (hs : step cfg s (t, .reset o v) = some (s', es)) : Reads cfg s' t o v := by
  unfold step at hs
  dsimp only at hs
  split at hs
  · cases hs
  next th ht =>
  split at hs
  · next hu =>
    cases hl : liveObj s o with
    | none => rw [hl] at hs; cases hs
    | some ob =>
      rw [hl] at hs
      cases hs
      rw [reads_iff]
      refine ⟨(doReset t o ob th v).1, ob, get_set_self ht, ?_, hl, ?_⟩
      · unfold doReset; dsimp only; split <;> exact hu
      · unfold doReset
        dsimp only
        split
        · next h => exact h
        · rw [getSpecific_setSpecific]; cases v <;> rfl
  · cases hs

/-- `release()` gives back what the thread read before, once, if that was not null; afterwards the thread reads null. -/
theorem C58_release_get {cfg s t o s' es} (hs : step cfg s (t, .release o) = some (s', es)) :
    Reads cfg s' t o none ∧ ∃ v, Reads cfg s t o v ∧
      (∀ x, v = some x → ∃ p, p.v = x ∧ es = [.cleared t o, .released t p]) ∧ (v = none → es = []) := by
  unfold step at hs
  dsimp only at hs
  split at hs
  · cases hs
  next th ht =>
  split at hs
  · next hu =>
    cases hl : liveObj s o with
    | none => rw [hl] at hs; cases hs
    | some ob =>
      rw [hl] at hs
      cases hs
      constructor
      · rw [reads_iff]
        refine ⟨(doRelease t o ob th).1, ob, get_set_self ht, ?_, hl, ?_⟩
        · unfold doRelease; split <;> exact hu
        · unfold doRelease
          split
          · rw [getSpecific_setSpecific]; rfl
          · next h => rw [h]; rfl
      · refine ⟨_, reads_iff.mpr ⟨th, ob, ht, hu, hl, rfl⟩, ?_, ?_⟩
        · intro x hx
          rw [Option.map_eq_some_iff] at hx
          obtain ⟨p, hp, rfl⟩ := hx
          exact ⟨p, rfl, by simp [doRelease, hp]⟩
        · intro hx
          rw [Option.map_eq_none_iff] at hx
          simp [doRelease, hx]
  · cases hs

/-- `reset(v)` calls the cleanup function for the value the thread read before, once, if that was not null and is not `v` itself,
and otherwise for nothing (`b`: the object has a cleanup function). -/
theorem C60_reset_cleans {cfg s t o v old s' es ob} (ho : s.objs[o]? = some ob) (hr : Reads cfg s t o old)
    (hs : step cfg s (t, .reset o v) = some (s', es)) (q : Ptr) (w : Why) (c : Nat) :
    (old ≠ v → ∀ x, old = some x → ob.cleanup = true → ∃ p, p.v = x ∧ es.filter (fun e => isDisposed p e) = [.cleaned t .replaced o p]) ∧
    ((old = v ∨ old = none ∨ ob.cleanup = false) → Ev.cleaned t w c q ∉ es) ∧
    (old = v → es = []) := by
  obtain ⟨th, ob', ht, hu, hl, rfl⟩ := reads_iff.mp hr
  obtain ⟨ho', _⟩ := liveObj_some hl
  rw [ho] at ho'
  cases ho'
  unfold step at hs
  simp only [ht, hu, if_true, hl, setThread, Option.some.injEq, Prod.mk.injEq] at hs
  obtain ⟨-, rfl⟩ := hs
  refine ⟨?_, ?_, ?_⟩
  · intro hne x hx hc
    rw [Option.map_eq_some_iff] at hx
    obtain ⟨p, hp, rfl⟩ := hx
    refine ⟨p, rfl, ?_⟩
    rw [hp] at hne
    simp only [Option.map_some] at hne
    simp only [doReset, hp, hc, if_true, Option.map_some, if_neg hne]
    cases v <;> simp [isDisposed]
  · intro h hm
    unfold doReset at hm
    dsimp only at hm
    split at hm
    · cases hm
    · next hne =>
      rcases h with h | h | h
      · exact hne h
      · rw [Option.map_eq_none_iff] at h
        rw [h] at hm
        cases v <;> simp at hm
      · rw [h] at hm
        cases v <;> cases hg : getSpecific th ob.key <;> rw [hg] at hm <;> simp at hm
  · intro h
    simp [doReset, if_pos h]

/-- A destroyed object is not live. -/
theorem dead_of_destroyed {cfg n tr s} (h : Exec (step cfg) (init n) tr s) :
    ∀ o, Ev.destroyed o ∈ tr → ∃ ob, s.objs[o]? = some ob ∧ ob.live = false := by
  induction h with
  | init => intro o ho; cases ho
  | @snoc tr s s' l es hx hs ih =>
    intro o ho
    rw [List.mem_append] at ho
    obtain ⟨t, op⟩ := l
    have hi := (inv_exec hx).1
    cases sstep_of_step hs with
    | localStep hth hl =>
      rcases ho with ho | ho
      · exact ih o ho
      · exfalso
        cases hl <;> first
          | (simp at ho; done)
          | (unfold doReset at ho; dsimp only at ho; repeat' split at ho
             all_goals simp at ho)
          | (unfold doRelease at ho; split at ho <;> simp at ho)
    | create hth hu hn =>
      obtain ⟨h1, h2, h3, h4, k, h5, h6⟩ := tab_newKey hi.tab hn
      rw [h3] at ho
      simp only [List.mem_singleton, reduceCtorEq, or_false] at ho
      obtain ⟨ob, h, hl⟩ := ih o ho
      exact ⟨ob, by rw [h5, List.getElem?_append_left (List.getElem?_eq_some_iff.mp h).1]; exact h, hl⟩
    | @destroy th o₀ ob₀ hth hu ho₀ hl₀ =>
      have hd := deleted_of_deleteKey (t := t) hi.tab ho₀ hl₀
      have hev : ∀ o, Ev.destroyed o ∈ (deleteKey s t o₀ ob₀).2 → o = o₀ := by
        intro o ho
        unfold deleteKey at ho
        dsimp only at ho
        repeat' split at ho
        all_goals simp at ho
        all_goals exact ho
      have hobjs : (deleteKey s t o₀ ob₀).1.objs = s.objs.set o₀ { ob₀ with live := false } := by
        generalize (deleteKey s t o₀ ob₀).1 = s₁ at *
        generalize (deleteKey s t o₀ ob₀).2 = es₁ at *
        cases hd <;> rfl
      rw [hobjs]
      by_cases he : o₀ = o
      · subst he
        exact ⟨_, get_set_self ho₀, rfl⟩
      · rcases ho with ho | ho
        · obtain ⟨ob, h, hl⟩ := ih o ho
          exact ⟨ob, by rw [get_set_ne he]; exact h, hl⟩
        · exact absurd (hev o ho).symm he

theorem inStorage_zero {p : Ptr} {l : List (Option Ptr)} (h : ∀ k : Nat, l[k]? ≠ some (some p)) : inStorage p l = 0 := by
  unfold inStorage
  rw [List.countP_eq_zero]
  intro x hx
  obtain ⟨k, hk⟩ := List.getElem?_of_mem hx
  simp only [decide_eq_true_eq]
  rintro rfl
  exact h k hk

/-- Once an object has been destroyed and the cleanup functions to be called for it have been called, all values ever stored in
it, by whatever thread, have been disposed of, each as often as it was stored.  For objects created with `cleanup_at_delete`, as
all `thread_specific_ptr` are, in executions in which no object is destroyed while an exiting thread has a value of it in the list
it is cleaning up (without that condition: `C61_refuted`). -/
theorem C60_destroyed_partial {cfg n tr s o ob} (h : Exec (stepC cfg) (init n) tr s) (hd : Ev.destroyed o ∈ tr)
    (ho : s.objs[o]? = some ob) (ha : ob.atDelete = true) (ht : ∀ th ∈ s.threads, th.todo = []) (v : Nat) :
    stored ⟨o, v⟩ tr = disposed ⟨o, v⟩ tr := by
  have hx := exec_of_stepC h
  have hi := (inv_exec hx).1
  have hr := right_exec h
  obtain ⟨ob', ho', hl⟩ := dead_of_destroyed hx o hd
  rw [ho] at ho'
  cases ho'
  have noOwner : ∀ k, ¬ Owner s.objs k ⟨o, v⟩ := by
    rintro k ⟨y, h1, h2, -⟩
    rw [show (Ptr.mk o v).obj = o from rfl, ho] at h1
    cases h1
    rcases h2 with h2 | h2
    · rw [hl] at h2; cases h2
    · rw [ha] at h2; cases h2
  have hz : held ⟨o, v⟩ s = 0 := by
    unfold held
    rw [List.sum_eq_zero_iff_forall_eq_nat]
    intro x hxm
    rw [List.mem_map] at hxm
    obtain ⟨th, hth, rfl⟩ := hxm
    obtain ⟨i, hi'⟩ := List.getElem?_of_mem hth
    have hti := hi.thr i th hi'
    have e1 : inCtx ⟨o, v⟩ th.slot = 0 := by
      cases hc : th.slot with
      | none => rfl
      | some c => exact inStorage_zero fun k hk => noOwner k ((hti.slot c hc).owner k _ hk)
    have e2 : inCtx ⟨o, v⟩ th.dying = 0 := by
      cases hc : th.dying with
      | none => rfl
      | some c => exact inStorage_zero fun k hk => noOwner k ((hti.dying c hc).owner k _ hk)
    have e3 : inPhase ⟨o, v⟩ th.ph = 0 := by
      cases hc : th.ph with
      | tls k pend r => exact inStorage_zero fun j hj => noOwner _ (hr.pend i th hi' k pend r hc j _ hj)
      | _ => rfl
    simp [heldBy, e1, e2, e3, ht th hth]
  have := acct_exec hx ⟨o, v⟩
  omega

/-- Two threads have values of an object which a third thread destroys: it cleans up both. -/
example : ∃ tr s ob, Exec (stepC (.pthreadKey 4)) (init 3) tr s ∧ Ev.destroyed 0 ∈ tr ∧ s.objs[0]? = some ob ∧ ob.atDelete = true ∧
    (∀ th ∈ s.threads, th.todo = []) ∧ stored ⟨0, 7⟩ tr = 1 ∧ stored ⟨0, 8⟩ tr = 1 ∧ .cleaned 2 .deleted 0 ⟨0, 7⟩ ∈ tr :=
  ⟨_, _, _, exec_of_run (ls := [(0, .create true true), (0, .reset 0 (some 7)), (1, .reset 0 (some 8)), (2, .destroy 0),
    (2, .cleanNext), (2, .cleanNext)]) rfl, by decide, rfl, by decide, by decide, by decide, by decide, by decide⟩

/-- A value is replaced, the new one is read, released, and then null is read. -/
example : ∃ s s₁ s₂ es₁ es₂, Reachable (step .windows) (init 1) s ∧ Reads .windows s 0 0 (some 7) ∧
    step .windows s (0, .reset 0 (some 8)) = some (s₁, es₁) ∧ .cleaned 0 .replaced 0 ⟨0, 7⟩ ∈ es₁ ∧
    step .windows s₁ (0, .release 0) = some (s₂, es₂) ∧ .released 0 ⟨0, 8⟩ ∈ es₂ ∧ Reads .windows s₂ 0 0 none :=
  ⟨_, _, _, _, _, ⟨_, exec_of_run (ls := [(0, .create true true), (0, .reset 0 (some 7))]) rfl⟩, by unfold Reads; rfl, rfl, by decide, rfl,
    by decide, by unfold Reads; rfl⟩

end Verif.Tss
