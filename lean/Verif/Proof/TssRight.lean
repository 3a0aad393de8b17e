import Verif.Proof.TssAcct

/-! # Values are cleaned up by the right cleanup function, unless objects are destroyed while their values are awaited -/

namespace Verif.Tss

def PendOk (objs : List Obj) (th : Thread) : Prop :=
  ∀ k pend r, th.ph = .tls k pend r → ∀ (j : Nat) q, pend[j]? = some (some q) → Owner objs (k + j) q

theorem pendOk_local {cfg objs table t th th' es} (hti : TI cfg objs table th) (h : PendOk objs th) (hs : LStep cfg objs table t th th' es) : PendOk objs th' := by
  intro k pend r hp j q hj
  have shift : ∀ {k₀ x rest r₀}, th.ph = .tls k₀ (x :: rest) r₀ → Phase.tls (k₀ + 1) rest r₀ = .tls k pend r → Owner objs (k + j) q := by
    intro k₀ x rest r₀ h1 h2
    cases h2
    have := h _ _ _ h1 (j + 1) q hj
    rwa [Nat.add_assoc, Nat.add_comm 1 j]
  cases hs with
  | tlsSkip h1 => exact shift h1 hp
  | tlsClean h1 => exact shift h1 hp
  | tlsDrop h1 => exact shift h1 hp
  | toTls => cases hp; simp at hj
  | @swapTls _ _ c h1 hv hc =>
    cases hp
    rw [Nat.zero_add]
    exact (victim_ok hti hv).owner j q hj
  | clean h1 => exact h k pend r hp j q hj
  | get => exact h k pend r hp j q hj
  | reset hu => exact h k pend r (doReset_ph ▸ hp) j q hj
  | release hu => exact h k pend r (doRelease_ph ▸ hp) j q hj
  | register hu => exact h k pend r hp j q hj
  | notifyReg hu => exact h k pend r hp j q hj
  | ubAtExit h1 _ => exact h k pend r hp j q hj
  | ubTls h1 _ => exact h k pend r hp j q hj
  | ubTable h1 _ => exact h k pend r hp j q hj
  | _ => cases hp

theorem right_owner {objs table fr} (htab : Tab objs table fr) {o : Nat} {ob : Obj} (ho : objs[o]? = some ob) (hl : ob.holding) {p}
    (h : Owner objs ob.key p) : p.obj = o := by
  obtain ⟨y, h1, h2, h3⟩ := h
  exact htab.uniq _ _ _ _ h1 ho h2 hl h3

theorem owner_of_get {cfg objs table th k p} (hti : TI cfg objs table th) (h : getSpecific th k = some p) : Owner objs k p := by
  unfold getSpecific at h
  split at h
  · cases h
  · next c hc => exact (hti.slot c hc).owner k p (getValue_iff.mp h)

theorem rightly_local {cfg objs table fr t th th' es} (htab : Tab objs table fr) (hti : TI cfg objs table th) (h : PendOk objs th)
    (hs : LStep cfg objs table t th th' es) : ∀ e ∈ es, rightly objs e := by
  intro e he
  cases hs with
  | @tlsClean k q rest r info c h1 h2 h3 =>
    simp only [List.mem_singleton] at he; subst he
    obtain ⟨ob, a, b, rfl⟩ := h _ _ _ h1 0 q rfl
    have := htab.key _ _ a b
    rw [this] at h2
    cases h2
    show c = q.obj
    dsimp only at h3
    split at h3 <;> cases h3
    rfl
  | @tlsDrop k q rest r info h1 h2 h3 =>
    simp only [List.mem_singleton] at he; subst he
    obtain ⟨ob, a, b, rfl⟩ := h _ _ _ h1 0 q rfl
    have := htab.key _ _ a b
    rw [this] at h2
    cases h2
    refine ⟨ob, a, ?_⟩
    dsimp only at h3
    split at h3
    · cases h3
    · next hc => simpa using hc
  | clean h1 =>
    simp only [List.mem_singleton] at he; subst he
    exact (hti.todo _ _ (by rw [h1]; exact List.mem_cons_self)).1
  | @reset o ob v hu ho hl =>
    unfold doReset at he
    dsimp only at he
    split at he
    · simp at he
    · rw [List.mem_append] at he
      rcases he with he | he
      · split at he <;> (simp at he; subst he; trivial)
      · split at he
        · next q hq =>
          have hq' := right_owner htab ho (.inl hl) (owner_of_get hti hq)
          split at he
          · simp only [List.mem_singleton] at he; subst he; exact hq'.symm
          · next hc =>
            simp only [List.mem_singleton] at he; subst he
            exact ⟨ob, by rw [hq']; exact ho, by simpa using hc⟩
        · simp at he
  | @release o ob hu ho hl =>
    unfold doRelease at he
    split at he
    · simp at he; rcases he with he | he <;> (subst he; trivial)
    · simp at he
  | notifyOne h => simp at he; rcases he with he | he <;> (subst he; trivial)
  | _ => simp at he <;> (try subst he) <;> trivial

theorem rightly_mono {objs objs' : List Obj} (h : ∀ (i : Nat) ob, objs[i]? = some ob → ∃ ob', objs'[i]? = some ob' ∧ ob'.cleanup = ob.cleanup) {e}
    (he : rightly objs e) : rightly objs' e := by
  cases e with
  | dropped t p =>
    obtain ⟨ob, h1, h2⟩ := he
    obtain ⟨ob', h3, h4⟩ := h _ _ h1
    exact ⟨ob', h3, by rw [h4, h2]⟩
  | _ => exact he

theorem owner_kept {objs : List Obj} {o : Nat} {ob : Obj} {k p} (h : Owner objs k p) (hp : p.obj ≠ o) :
    Owner (objs.set o { ob with live := false }) k p := by
  obtain ⟨y, h1, h2, h3⟩ := h
  exact ⟨y, get_objs_set hp h1, h2, h3⟩

theorem notAwaited_spec {o : Nat} {th : Thread} (h : notAwaited o th = true) {k pend r} (hp : th.ph = .tls k pend r) {j : Nat} {q}
    (hj : pend[j]? = some (some q)) : q.obj ≠ o := by
  unfold notAwaited at h
  rw [hp] at h
  dsimp only at h
  have := List.all_eq_true.mp h _ (List.mem_of_getElem? hj)
  simpa using this

structure Right (tr : List Ev) (s : St) : Prop where
  pend : ∀ (t : Nat) th, s.threads[t]? = some th → PendOk s.objs th
  all : ∀ e ∈ tr, rightly s.objs e

theorem right_step {cfg tr s l s' es} (hi : Inv cfg s) (h : Right tr s) (hq : considerate s l = true)
    (hs : step cfg s l = some (s', es)) : Right (tr ++ es) s' := by
  obtain ⟨t, op⟩ := l
  cases sstep_of_step hs with
  | localStep hth hl =>
    refine ⟨fun i th' hit => ?_, fun e he => ?_⟩
    · rcases get_set_cases hit with ⟨rfl, rfl⟩ | ⟨_, hit⟩
      · exact pendOk_local (hi.thr _ _ hth) (h.pend _ _ hth) hl
      · exact h.pend i th' hit
    · rcases List.mem_append.mp he with he | he
      · exact h.all e he
      · exact rightly_local hi.tab (hi.thr _ _ hth) (h.pend _ _ hth) hl e he
  | create hth hu hn =>
    obtain ⟨_, h2, h3, _, k, h5, _⟩ := tab_newKey hi.tab hn
    have hm : ∀ (i : Nat) ob, s.objs[i]? = some ob → s'.objs[i]? = some ob := by
      intro i ob hi
      rw [h5, List.getElem?_append_left (List.getElem?_eq_some_iff.mp hi).1]; exact hi
    refine ⟨fun i th' hit k pend r hp j q hj => ?_, fun e he => ?_⟩
    · rw [h2] at hit
      obtain ⟨y, a, b, c⟩ := h.pend i th' hit k pend r hp j q hj
      exact ⟨y, hm _ _ a, b, c⟩
    · rcases List.mem_append.mp he with he | he
      · exact rightly_mono (fun i ob hi => ⟨ob, hm i ob hi, rfl⟩) (h.all e he)
      · rw [h3] at he; simp at he; subst he; trivial
  | @destroy th o₀ ob₀ hth hu ho₀ hl₀ =>
    have hd := deleted_of_deleteKey (t := t) hi.tab ho₀ hl₀
    generalize (deleteKey s t o₀ ob₀).1 = s₁ at *
    generalize (deleteKey s t o₀ ob₀).2 = es₁ at *
    have hobjs : s₁.objs = s.objs.set o₀ { ob₀ with live := false } := by cases hd <;> rfl
    have hq' : ∀ (i : Nat) th, s.threads[i]? = some th → notAwaited o₀ th = true := fun i th hit =>
      List.all_eq_true.mp hq th (List.mem_of_getElem? hit)
    have hpend : ∀ (i : Nat) th, s.threads[i]? = some th → ∀ k pend r, th.ph = .tls k pend r → ∀ (j : Nat) q, pend[j]? = some (some q) →
        Owner s₁.objs (k + j) q := by
      intro i th hit k pend r hp j q hj
      rw [hobjs]
      exact owner_kept (h.pend i th hit k pend r hp j q hj) (notAwaited_spec (hq' i th hit) hp hj)
    have hm : ∀ (i : Nat) ob, s.objs[i]? = some ob → ∃ ob', s₁.objs[i]? = some ob' ∧ ob'.cleanup = ob.cleanup := by
      intro i ob hi
      rw [hobjs]
      by_cases e : i = o₀
      · subst e; rw [ho₀] at hi; cases hi; exact ⟨_, get_objs_set_self ho₀, rfl⟩
      · exact ⟨ob, get_objs_set e hi, rfl⟩
    refine ⟨fun i th' hit => ?_, fun e he => ?_⟩
    · cases hd with
      | keep => exact hpend i th' hit
      | forget =>
        simp only [List.getElem?_map, Option.map_eq_some_iff] at hit
        obtain ⟨th₀, h1, rfl⟩ := hit
        exact hpend i th₀ h1
      | run =>
        obtain ⟨th₁, h1, h2⟩ := get_addTodo hit
        simp only [List.getElem?_map, Option.map_eq_some_iff] at h1
        obtain ⟨th₀, h3, rfl⟩ := h1
        rcases h2 with ⟨_, rfl⟩ | ⟨_, rfl⟩
        · exact hpend i th₀ h3
        · exact hpend i th₀ h3
    · rcases List.mem_append.mp he with he | he
      · exact rightly_mono hm (h.all e he)
      · cases hd with
        | keep => simp at he; subst he; trivial
        | run => simp at he; subst he; trivial
        | forget _ hc =>
          rcases List.mem_cons.mp he with rfl | he
          · trivial
          · rw [List.mem_map] at he
            obtain ⟨q, hq1, rfl⟩ := he
            obtain ⟨th₀, ht0, hq2⟩ := List.mem_flatMap.mp hq1
            obtain ⟨i, hti⟩ := List.getElem?_of_mem ht0
            have := taken_owner hi.tab ho₀ hl₀ (hi.thr i th₀ hti) hq2
            exact ⟨{ ob₀ with live := false }, by rw [this]; exact get_objs_set_self ho₀, hc⟩

theorem exec_of_stepC {cfg s₀ tr s} (h : Exec (stepC cfg) s₀ tr s) : Exec (step cfg) s₀ tr s := by
  induction h with
  | init => exact .init
  | snoc _ hs ih =>
    unfold stepC at hs
    split at hs
    · exact .snoc ih hs
    · cases hs

theorem right_exec {cfg n tr s} (h : Exec (stepC cfg) (init n) tr s) : Right tr s := by
  induction h with
  | init =>
    refine ⟨fun t th ht => ?_, by simp⟩
    have := get_replicate ht
    subst this
    intro k pend r hp
    cases hp
  | snoc hx hs ih =>
    unfold stepC at hs
    split at hs
    · next hc => exact right_step (inv_exec (exec_of_stepC hx)).1 ih hc hs
    · cases hs

end Verif.Tss
