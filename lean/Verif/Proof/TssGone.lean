import Verif.Proof.TssRight

/-! # Threads that are gone, and what exiting threads read -/

namespace Verif.Tss

/-- On Windows nothing is left of a thread that is gone. -/
def GoneW (cfg : Cfg) (th : Thread) : Prop := cfg = .windows → th.ph = .done → th.slot = none

theorem not_done_of_user {cfg objs table th} (h : TI cfg objs table th) (hu : userCode th = true) : th.ph ≠ .done := by
  intro hp
  unfold userCode at hu
  rw [Bool.or_eq_true, decide_eq_true_eq] at hu
  rcases hu with hu | hu
  · rw [hp] at hu; cases hu
  · have := h.cb hu; rw [hp] at this; cases this

theorem goneW_local {cfg objs table t th th' es} (hti : TI cfg objs table th) (h : GoneW cfg th) (hs : LStep cfg objs table t th th' es) : GoneW cfg th' := by
  intro hc hp
  cases hs with
  | tlsEnd e => rw [e] at hc; cases hc
  | exhausted e => rw [e] at hc; cases hc
  | noCtx h1 => exact h1
  | endW => rfl
  | clean h1 => exact h hc hp
  | get => exact h hc hp
  | reset hu => exact absurd (doReset_ph ▸ hp) (not_done_of_user hti hu)
  | release hu => exact absurd (doRelease_ph ▸ hp) (not_done_of_user hti hu)
  | register hu => exact (not_done_of_user hti hu hp).elim
  | notifyReg hu => exact (not_done_of_user hti hu hp).elim
  | ubAtExit h1 _ => exact h hc hp
  | ubTls h1 _ => exact h hc hp
  | ubTable h1 _ => exact h hc hp
  | _ => cases hp

/-- A property of single threads kept by their own steps and by the loss of values is kept by all steps. -/
theorem thread_step {cfg s l s' es} {P : Thread → Prop} (hi : Inv cfg s) (h : ∀ (t : Nat) th, s.threads[t]? = some th → P th)
    (hloc : ∀ {t th th' es}, TI cfg s.objs s.table th → P th → LStep cfg s.objs s.table t th th' es → P th')
    (hclear : ∀ k th, P th → P (clearThread k th)) (htodo : ∀ th l, P th → P { th with todo := l ++ th.todo })
    (hs : step cfg s l = some (s', es)) : ∀ (t : Nat) th, s'.threads[t]? = some th → P th := by
  obtain ⟨t, op⟩ := l
  intro i th' hit
  cases sstep_of_step hs with
  | localStep hth hl =>
    rcases get_set_cases hit with ⟨rfl, rfl⟩ | ⟨_, hit⟩
    · exact hloc (hi.thr _ _ hth) (h _ _ hth) hl
    · exact h i th' hit
  | create hth hu hn =>
    obtain ⟨_, h2, _⟩ := tab_newKey hi.tab hn
    rw [h2] at hit
    exact h i th' hit
  | @destroy th o₀ ob₀ hth hu ho₀ hl₀ =>
    have hd := deleted_of_deleteKey (t := t) hi.tab ho₀ hl₀
    generalize (deleteKey s t o₀ ob₀).1 = s₁ at *
    generalize (deleteKey s t o₀ ob₀).2 = es₁ at *
    cases hd with
    | keep => exact h i th' hit
    | forget =>
      simp only [List.getElem?_map, Option.map_eq_some_iff] at hit
      obtain ⟨th₀, h1, rfl⟩ := hit
      exact hclear _ _ (h i th₀ h1)
    | run =>
      obtain ⟨th₁, h1, h2⟩ := get_addTodo hit
      simp only [List.getElem?_map, Option.map_eq_some_iff] at h1
      obtain ⟨th₀, h3, rfl⟩ := h1
      have := hclear ob₀.key _ (h i th₀ h3)
      rcases h2 with ⟨_, rfl⟩ | ⟨_, rfl⟩
      · exact htodo _ _ this
      · exact this

theorem goneW_exec {cfg n tr s} (h : Exec (step cfg) (init n) tr s) : ∀ (t : Nat) th, s.threads[t]? = some th → GoneW cfg th := by
  induction h with
  | init =>
    intro t th ht
    have := get_replicate ht
    subst this
    intro _ hp
    cases hp
  | snoc hx hs ih =>
    refine thread_step (inv_exec hx).1 ih (fun hti hp hl => goneW_local hti hp hl) ?_ ?_ hs
    · intro k th hp hc hd
      show th.slot.map _ = none
      rw [hp hc hd]; rfl
    · intro th l hp; exact hp

/-! ## exiting threads -/

/-- What is found under the key of a live object is what was last stored there. -/
def Stale (tr : List Ev) (s : St) : Prop :=
  ∀ (t : Nat) (th : Thread), s.threads[t]? = some th → ∀ (o : Nat) ob, s.objs[o]? = some ob → ob.live = true →
    ∀ v, (getSpecific th ob.key).map Ptr.v = some v → lastValue t o tr = some v

theorem stale_local {cfg objs table fr t th th' es} (htab : Tab objs table fr) (hs : LStep cfg objs table t th th' es)
    {tr : List Ev} (hv : ∀ (o : Nat) ob, objs[o]? = some ob → ob.live = true → ∀ v, (getSpecific th ob.key).map Ptr.v = some v → lastValue t o tr = some v)
    (o : Nat) (ob : Obj) (ho : objs[o]? = some ob) (hl : ob.live = true) (v : Nat)
    (h : (getSpecific th' ob.key).map Ptr.v = some v) : lastValue t o (tr ++ es) = some v := by
  have plain : (∀ e ∈ es, evThread e = none) →
      (th'.slot = th.slot ∨ (∃ c c', th.slot = some c ∧ th'.slot = some c' ∧ c'.storage = c.storage) ∨ th'.slot = none ∨ ∃ c', th'.slot = some c' ∧ c'.storage = []) →
      lastValue t o (tr ++ es) = some v := by
    intro he h2
    rw [lastValue_other (fun e h => by rw [he e h]; simp)]
    rcases h2 with h2 | h2 | h2 | ⟨c', h2, h3⟩
    · rw [getSpecific_slot (.inl h2)] at h; exact hv o ob ho hl v h
    · rw [getSpecific_slot (.inr h2)] at h; exact hv o ob ho hl v h
    · unfold getSpecific at h; rw [h2] at h; cases h
    · unfold getSpecific at h; rw [h2] at h
      dsimp only at h
      unfold getValue at h; rw [h3] at h; cases h
  cases hs with
  | enterP => exact plain (by simp) (.inr (.inr (.inl rfl)))
  | enterW hc hsl hp _ => exact plain (by simp) (.inr (.inl ⟨_, _, hsl, rfl, rfl⟩))
  | @swapAtExit r c hp hvc hc =>
    unfold victim at hvc
    cases hd : th.dying with
    | none =>
      rw [hd] at hvc
      exact plain (by simp) (.inr (.inl ⟨c, { c with atExit := [] }, hvc, by simp [setVictim, hd], rfl⟩))
    | some d => exact plain (by simp) (.inl (by simp [setVictim, hd]))
  | @swapTls k r c hp hvc hc =>
    cases hd : th.dying with
    | none => exact plain (by simp) (.inr (.inr (.inr ⟨{ c with storage := [] }, by simp [setVictim, hd], rfl⟩)))
    | some d => exact plain (by simp) (.inl (by simp [setVictim, hd]))
  | endW => exact plain (by simp [evThread]) (.inr (.inr (.inl rfl)))
  | @reset o' ob' v' hu ho' hl' =>
    rw [lastValue_append]
    by_cases e : o = o'
    · subst e
      rw [ho] at ho'; cases ho'
      unfold doReset at h ⊢
      dsimp only at h ⊢
      by_cases hsame : (getSpecific th ob.key).map Ptr.v = v'
      · rw [if_pos hsame] at h ⊢
        exact hv o ob ho hl v h
      · rw [if_neg hsame] at h ⊢
        dsimp only at h ⊢
        rw [getSpecific_set, if_pos rfl] at h
        cases v' with
        | none => cases h
        | some x =>
          simp only [Option.map_some, Option.some.injEq] at h
          subst h
          cases hg : getSpecific th ob.key with
          | none => simp [given]
          | some p => by_cases hcl : ob.cleanup = true <;> simp [hcl, given]
    · have hk : ob.key ≠ ob'.key := fun hk => e (htab.uniq o o' ob ob' ho ho' (.inl hl) (.inl hl') hk)
      rw [doReset_get _ hk] at h
      rw [(doReset_last rfl).2 o e]
      exact hv o ob ho hl v h
  | @release o' ob' hu ho' hl' =>
    rw [lastValue_append]
    by_cases e : o = o'
    · subst e
      rw [ho] at ho'; cases ho'
      unfold doRelease at h ⊢
      split at h
      · dsimp only at h; rw [getSpecific_set, if_pos rfl] at h; cases h
      · exact hv o ob ho hl v h
    · have hk : ob.key ≠ ob'.key := fun hk => e (htab.uniq o o' ob ob' ho ho' (.inl hl) (.inl hl') hk)
      rw [doRelease_get _ hk] at h
      rw [(doRelease_last rfl).2 o e]
      exact hv o ob ho hl v h
  | register _ =>
    rw [lastValue_other (by simp [evThread])]
    exact hv o ob ho hl v ((congrArg (Option.map Ptr.v) (getSpecific_ensure (by rfl) ob.key)).symm.trans h)
  | notifyReg _ =>
    rw [lastValue_other (by simp [evThread])]
    exact hv o ob ho hl v ((congrArg (Option.map Ptr.v) (getSpecific_ensure (by rfl) ob.key)).symm.trans h)
  | notifyOne => exact plain (by simp [evThread]) (.inl rfl)
  | _ => exact plain (by simp [evThread]) (.inl rfl)

theorem stale_step {cfg tr s l s' es} (hi : Inv cfg s) (hv : Stale tr s) (hs : step cfg s l = some (s', es)) : Stale (tr ++ es) s' := by
  obtain ⟨t, op⟩ := l
  cases sstep_of_step hs with
  | localStep hth hl =>
    intro i th' hit o ob ho hlive v h
    dsimp only at hit
    rcases get_set_cases hit with ⟨rfl, rfl⟩ | ⟨hne, hit⟩
    · exact stale_local hi.tab hl (hv _ _ hth) o ob ho hlive v h
    · rw [lastValue_other (fun e he => by rcases lstep_thread hl e he with h | h <;> rw [h] <;> simp [hne])]
      exact hv i th' hit o ob ho hlive v h
  | create hth hu hn =>
    obtain ⟨h1, h2, h3, h4, k, h5, h6⟩ := tab_newKey hi.tab hn
    intro i th' hit o ob ho hlive v h
    rw [lastValue_other (by rw [h3]; simp [evThread])]
    rw [h2] at hit
    rw [h5] at ho
    rcases get_append_one ho with ho | ⟨rfl, rfl⟩
    · exact hv i th' hit o ob ho hlive v h
    · exfalso
      rw [Option.map_eq_some_iff] at h
      obtain ⟨p, hg, _⟩ := h
      obtain ⟨y, y1, y2, y3⟩ := owner_of_get (hi.thr i th' hit) hg
      exact h6 p.obj y y1 y2 y3
  | @destroy th o₀ ob₀ hth hu ho₀ hl₀ =>
    have hd := deleted_of_deleteKey (t := t) hi.tab ho₀ hl₀
    have hlast : ∀ i o, lastValue i o (tr ++ (deleteKey s t o₀ ob₀).2) = lastValue i o tr :=
      fun i o => lastValue_other (fun e he => by rw [deleted_events hd e he]; simp)
    generalize (deleteKey s t o₀ ob₀).1 = s₁ at *
    generalize (deleteKey s t o₀ ob₀).2 = es₁ at *
    intro i th' hit o ob ho hlive v h
    have hobjs : s₁.objs = s.objs.set o₀ { ob₀ with live := false } := by cases hd <;> rfl
    rw [hobjs] at ho
    rw [hlast]
    rcases objs_set ho₀ ho with ⟨_, rfl⟩ | ⟨hne, ho'⟩
    · cases hlive
    · have hget : ∀ th₀, s.threads[i]? = some th₀ → ∀ v, (getSpecific (clearThread ob₀.key th₀) ob.key).map Ptr.v = some v → lastValue i o tr = some v := by
        intro th₀ h1 v h
        rw [getSpecific_clear] at h
        split at h
        · cases h
        · exact hv i th₀ h1 o ob ho' hlive v h
      cases hd with
      | keep => exact hv i th' hit o ob ho' hlive v h
      | forget =>
        simp only [List.getElem?_map, Option.map_eq_some_iff] at hit
        obtain ⟨th₀, h1, rfl⟩ := hit
        exact hget th₀ h1 v h
      | run =>
        obtain ⟨th₁, h1, h2⟩ := get_addTodo hit
        simp only [List.getElem?_map, Option.map_eq_some_iff] at h1
        obtain ⟨th₀, h3, rfl⟩ := h1
        rcases h2 with ⟨_, rfl⟩ | ⟨_, rfl⟩
        · exact hget th₀ h3 v h
        · exact hget th₀ h3 v h

theorem stale_exec {cfg n tr s} (h : Exec (step cfg) (init n) tr s) : Stale tr s := by
  induction h with
  | init => intro t th ht o ob ho; simp [init] at ho
  | snoc hx hs ih => exact stale_step (inv_exec hx).1 ih hs

end Verif.Tss
