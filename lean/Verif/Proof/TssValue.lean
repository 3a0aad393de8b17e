import Verif.Proof.TssDelete
import Verif.Spec.Tss

/-! # The value read is the value last set -/

namespace Verif.Tss

/-- The thread an event belongs to, as far as values are concerned. -/
def evThread : Ev → Option Nat
  | .stored t _ | .cleared t _ => some t
  | _ => none

theorem given_other {t o cur e} (h : evThread e ≠ some t) : given t o cur e = cur := by
  cases e <;> simp_all [given, evThread]

theorem foldl_other {t o} {es : List Ev} (h : ∀ e ∈ es, evThread e ≠ some t) (cur) : es.foldl (given t o) cur = cur := by
  induction es generalizing cur with
  | nil => rfl
  | cons e es ih =>
    rw [List.foldl_cons, given_other (h e (by simp)), ih (fun e' he' => h e' (by simp [he']))]

theorem lastValue_append {t o tr es} : lastValue t o (tr ++ es) = es.foldl (given t o) (lastValue t o tr) := by
  simp [lastValue, List.foldl_append]

theorem lastValue_other {t o tr} {es : List Ev} (h : ∀ e ∈ es, evThread e ≠ some t) : lastValue t o (tr ++ es) = lastValue t o tr := by
  rw [lastValue_append, foldl_other h]

theorem lstep_thread {cfg objs table t th th' es} (h : LStep cfg objs table t th th' es) : ∀ e ∈ es, evThread e = none ∨ evThread e = some t := by
  intro e he
  cases h with
  | @reset o ob v hu ho hl =>
    unfold doReset at he
    dsimp only at he
    split at he
    · simp at he
    · rw [List.mem_append] at he
      rcases he with he | he
      · split at he <;> simp at he <;> subst he <;> simp [evThread]
      · split at he
        · split at he <;> simp at he <;> subst he <;> simp [evThread]
        · simp at he
  | @release o ob hu ho hl =>
    unfold doRelease at he
    split at he
    · simp at he; rcases he with he | he <;> subst he <;> simp [evThread]
    · simp at he
  | notifyOne h => simp at he; rcases he with he | he <;> subst he <;> simp [evThread]
  | _ => simp at he <;> (try subst he) <;> simp [evThread]

/-- Events of a deletion or creation concern no value. -/
theorem deleted_events {s t o ob s' es} (h : Deleted s t o ob s' es) : ∀ e ∈ es, evThread e = none := by
  intro e he
  cases h with
  | keep => simp at he; subst he; rfl
  | run => simp at he; subst he; rfl
  | forget =>
    rcases List.mem_cons.mp he with rfl | he
    · rfl
    · rw [List.mem_map] at he; obtain ⟨q, _, rfl⟩ := he; rfl

/-- The thread sees all its values. -/
def Sees (cfg : Cfg) (ph : Phase) : Prop :=
  ph = .running ∨ (cfg = .windows ∧ ((∃ r, ph = .between r) ∨ ∃ p r, ph = .atExit p r))

theorem getSpecific_set (th : Thread) (k k' : Nat) (x : Option Ptr) :
    getSpecific (setSpecific th k x) k' = if k' = k then x else getSpecific th k' := by
  unfold getSpecific setSpecific ensureCtx
  dsimp only
  rw [getValue_setValue]
  cases hs : th.slot with
  | none => simp [getValue, Ctx.empty]
  | some c => rfl

theorem getSpecific_slot {th th' : Thread} (h : th'.slot = th.slot ∨ ∃ c c', th.slot = some c ∧ th'.slot = some c' ∧ c'.storage = c.storage) (k : Nat) :
    getSpecific th' k = getSpecific th k := by
  rcases h with h | ⟨c, c', h1, h2, h3⟩
  · unfold getSpecific; rw [h]
  · unfold getSpecific; rw [h1, h2]; simp [getValue, h3]

theorem getSpecific_ensure {th : Thread} {c : Ctx} (h : c.storage = (ensureCtx th).storage) (k : Nat) :
    getSpecific { th with slot := some c } k = getSpecific th k := by
  unfold getSpecific getValue
  dsimp only
  rw [h]
  unfold ensureCtx
  cases th.slot with
  | none => simp [Ctx.empty]
  | some c => rfl

structure Val (cfg : Cfg) (tr : List Ev) (s : St) : Prop where
  val : ∀ (t : Nat) (th : Thread), s.threads[t]? = some th → Sees cfg th.ph → ∀ (o : Nat) ob, s.objs[o]? = some ob → ob.live = true →
    (getSpecific th ob.key).map Ptr.v = lastValue t o tr
  fresh : ∀ t o, s.objs.length ≤ o → lastValue t o tr = none

theorem doReset_get {t o ob th v} (k : Nat) (hk : k ≠ ob.key) : getSpecific (doReset t o ob th v).1 k = getSpecific th k := by
  unfold doReset
  dsimp only
  split
  · rfl
  · rw [getSpecific_set, if_neg hk]

theorem doRelease_get {t o ob th} (k : Nat) (hk : k ≠ ob.key) : getSpecific (doRelease t o ob th).1 k = getSpecific th k := by
  unfold doRelease
  split
  · rw [getSpecific_set, if_neg hk]
  · rfl

theorem doReset_last {t o ob th v cur} (hc : (getSpecific th ob.key).map Ptr.v = cur) :
    (getSpecific (doReset t o ob th v).1 ob.key).map Ptr.v = (doReset t o ob th v).2.foldl (given t o) cur ∧
    ∀ o', o' ≠ o → ∀ cur', (doReset t o ob th v).2.foldl (given t o') cur' = cur' := by
  unfold doReset
  dsimp only
  split
  · exact ⟨hc, fun _ _ _ => rfl⟩
  · rw [getSpecific_set, if_pos rfl]
    constructor
    · cases v with
      | none =>
        cases hg : getSpecific th ob.key with
        | none => simp [given]
        | some p => by_cases hcl : ob.cleanup = true <;> simp [hcl, given]
      | some x =>
        cases hg : getSpecific th ob.key with
        | none => simp [given]
        | some p => by_cases hcl : ob.cleanup = true <;> simp [hcl, given]
    · intro o' hne cur'
      have hne' : o ≠ o' := Ne.symm hne
      cases v with
      | none =>
        cases hg : getSpecific th ob.key with
        | none => simp [given, hne']
        | some p => by_cases hcl : ob.cleanup = true <;> simp [hcl, given, hne']
      | some x =>
        cases hg : getSpecific th ob.key with
        | none => simp [given, hne']
        | some p => by_cases hcl : ob.cleanup = true <;> simp [hcl, given, hne']

theorem doRelease_last {t o ob th cur} (hc : (getSpecific th ob.key).map Ptr.v = cur) :
    (getSpecific (doRelease t o ob th).1 ob.key).map Ptr.v = (doRelease t o ob th).2.foldl (given t o) cur ∧
    ∀ o', o' ≠ o → ∀ cur', (doRelease t o ob th).2.foldl (given t o') cur' = cur' := by
  unfold doRelease
  split
  · rw [getSpecific_set, if_pos rfl]
    exact ⟨by simp [given], fun o' hne cur' => by simp [given, Ne.symm hne]⟩
  · exact ⟨hc, fun _ _ _ => rfl⟩

/-- A step of the thread itself. -/
theorem val_local {cfg objs table fr t th th' es} (htab : Tab objs table fr) (hti : TI cfg objs table th) (hs : LStep cfg objs table t th th' es)
    (hsees : Sees cfg th'.ph) {tr : List Ev} (hv : Sees cfg th.ph → ∀ (o : Nat) ob, objs[o]? = some ob → ob.live = true →
      (getSpecific th ob.key).map Ptr.v = lastValue t o tr) (o : Nat) (ob : Obj) (ho : objs[o]? = some ob) (hl : ob.live = true) :
    (getSpecific th' ob.key).map Ptr.v = lastValue t o (tr ++ es) := by
  have plain : (∀ e ∈ es, evThread e = none) → Sees cfg th.ph →
      (th'.slot = th.slot ∨ ∃ c c', th.slot = some c ∧ th'.slot = some c' ∧ c'.storage = c.storage) →
      (getSpecific th' ob.key).map Ptr.v = lastValue t o (tr ++ es) := by
    intro he h1 h2
    rw [lastValue_other (fun e h => by rw [he e h]; simp), getSpecific_slot h2]
    exact hv h1 o ob ho hl
  cases hs with
  | beginExit hp _ => exact plain (by simp [evThread]) (.inl hp) (.inl rfl)
  | tlsEnd _ _ => rcases hsees with h | ⟨_, ⟨_, h⟩ | ⟨_, _, h⟩⟩ <;> cases h
  | noCtx _ _ => rcases hsees with h | ⟨_, ⟨_, h⟩ | ⟨_, _, h⟩⟩ <;> cases h
  | exhausted _ _ _ _ => rcases hsees with h | ⟨_, ⟨_, h⟩ | ⟨_, _, h⟩⟩ <;> cases h
  | enterP hc _ _ _ _ =>
    rcases hsees with h | ⟨h, _⟩
    · cases h
    · rw [hc] at h; cases h
  | enterW hc hsl hp _ => exact plain (by simp) (.inr ⟨hc, .inl ⟨_, hp⟩⟩) (.inr ⟨_, _, hsl, rfl, rfl⟩)
  | ran hp =>
    rcases hsees with h | ⟨h, _⟩
    · cases h
    · exact plain (by simp [evThread]) (.inr ⟨h, .inr ⟨_, _, hp⟩⟩) (.inl rfl)
  | toTls _ _ _ => rcases hsees with h | ⟨_, ⟨_, h⟩ | ⟨_, _, h⟩⟩ <;> cases h
  | @swapAtExit _ c₀ hp hvc hc =>
    rcases hsees with h | ⟨h, _⟩
    · cases h
    · have hd := hti.noDying (.inl h)
      have hsl : th.slot = some c₀ := by unfold victim at hvc; rw [hd] at hvc; exact hvc
      exact plain (by simp) (.inr ⟨h, .inr ⟨_, _, hp⟩⟩) (.inr ⟨c₀, { c₀ with atExit := [] }, hsl, by simp [setVictim, hd], rfl⟩)
  | tlsSkip _ => rcases hsees with h | ⟨_, ⟨_, h⟩ | ⟨_, _, h⟩⟩ <;> cases h
  | tlsClean _ _ _ => rcases hsees with h | ⟨_, ⟨_, h⟩ | ⟨_, _, h⟩⟩ <;> cases h
  | tlsDrop _ _ _ => rcases hsees with h | ⟨_, ⟨_, h⟩ | ⟨_, _, h⟩⟩ <;> cases h
  | toNotify _ _ _ _ => rcases hsees with h | ⟨_, ⟨_, h⟩ | ⟨_, _, h⟩⟩ <;> cases h
  | swapTls _ _ _ => rcases hsees with h | ⟨_, ⟨_, h⟩ | ⟨_, _, h⟩⟩ <;> cases h
  | notifyOne _ => rcases hsees with h | ⟨_, ⟨_, h⟩ | ⟨_, _, h⟩⟩ <;> cases h
  | endW _ _ => rcases hsees with h | ⟨_, ⟨_, h⟩ | ⟨_, _, h⟩⟩ <;> cases h
  | endP hc _ =>
    rcases hsees with h | ⟨h, _⟩
    · cases h
    · exact absurd h hc
  | ubAtExit _ _ => exact plain (by simp [evThread]) hsees (.inl rfl)
  | ubTls _ _ => exact plain (by simp [evThread]) hsees (.inl rfl)
  | ubTable _ _ => exact plain (by simp [evThread]) hsees (.inl rfl)
  | clean _ => exact plain (by simp [evThread]) hsees (.inl rfl)
  | get _ _ _ => exact plain (by simp [evThread]) hsees (.inl rfl)
  | @reset o' ob' v hu ho' hl' =>
    have hsees' : Sees cfg th.ph := by
      have : (doReset t o' ob' th v).1.ph = th.ph := by unfold doReset; dsimp only; split <;> rfl
      rw [this] at hsees; exact hsees
    rw [lastValue_append]
    by_cases e : o = o'
    · subst e
      rw [ho] at ho'; cases ho'
      exact (doReset_last (hv hsees' o ob ho hl)).1
    · have hk : ob.key ≠ ob'.key := fun hk => e (htab.uniq o o' ob ob' ho ho' (.inl hl) (.inl hl') hk)
      rw [doReset_get _ hk, (doReset_last rfl).2 o e]
      exact hv hsees' o ob ho hl
  | @release o' ob' hu ho' hl' =>
    have hsees' : Sees cfg th.ph := by
      have : (doRelease t o' ob' th).1.ph = th.ph := by unfold doRelease; split <;> rfl
      rw [this] at hsees; exact hsees
    rw [lastValue_append]
    by_cases e : o = o'
    · subst e
      rw [ho] at ho'; cases ho'
      exact (doRelease_last (hv hsees' o ob ho hl)).1
    · have hk : ob.key ≠ ob'.key := fun hk => e (htab.uniq o o' ob ob' ho ho' (.inl hl) (.inl hl') hk)
      rw [doRelease_get _ hk, (doRelease_last rfl).2 o e]
      exact hv hsees' o ob ho hl
  | register _ =>
    rw [lastValue_other (by simp [evThread])]
    exact (congrArg (Option.map Ptr.v) (getSpecific_ensure (by rfl) ob.key)).trans (hv hsees o ob ho hl)
  | notifyReg _ =>
    rw [lastValue_other (by simp [evThread])]
    exact (congrArg (Option.map Ptr.v) (getSpecific_ensure (by rfl) ob.key)).trans (hv hsees o ob ho hl)

/-- Objects mentioned by the events of a step exist. -/
theorem lstep_fresh {cfg objs table t th th' es} (h : LStep cfg objs table t th th' es) (t' : Nat) {o : Nat} (ho : objs.length ≤ o) (cur) :
    es.foldl (given t' o) cur = cur := by
  cases h with
  | @reset o' ob' v hu ho' hl' =>
    have hne : o ≠ o' := by have := (List.getElem?_eq_some_iff.mp ho').1; omega
    by_cases ht : t' = t
    · subst ht; exact (doReset_last rfl).2 o hne cur
    · exact foldl_other (fun e he => by rcases lstep_thread (LStep.reset (cfg := cfg) (table := table) hu ho' hl') e he with h | h <;> rw [h] <;> simp [Ne.symm ht]) cur
  | @release o' ob' hu ho' hl' =>
    have hne : o ≠ o' := by have := (List.getElem?_eq_some_iff.mp ho').1; omega
    by_cases ht : t' = t
    · subst ht; exact (doRelease_last rfl).2 o hne cur
    · exact foldl_other (fun e he => by rcases lstep_thread (LStep.release (cfg := cfg) (table := table) hu ho' hl') e he with h | h <;> rw [h] <;> simp [Ne.symm ht]) cur
  | _ => simp [given]

theorem getSpecific_clear (k j : Nat) (th : Thread) : getSpecific (clearThread k th) j = if j = k then none else getSpecific th j := by
  unfold getSpecific clearThread
  dsimp only
  cases th.slot with
  | none => simp
  | some c => exact clearKey_get k c j

theorem val_step {cfg tr s l s' es} (hi : Inv cfg s) (hv : Val cfg tr s) (hs : step cfg s l = some (s', es)) : Val cfg (tr ++ es) s' := by
  obtain ⟨t, op⟩ := l
  cases sstep_of_step hs with
  | localStep hth hl =>
    refine ⟨fun i th' hit hsees o ob ho hlive => ?_, fun i o ho => ?_⟩
    · dsimp only at hit
      rcases get_set_cases hit with ⟨rfl, rfl⟩ | ⟨hne, hit⟩
      · exact val_local hi.tab (hi.thr _ _ hth) hl hsees (fun h => hv.val _ _ hth h) o ob ho hlive
      · rw [lastValue_other (fun e he => by rcases lstep_thread hl e he with h | h <;> rw [h] <;> simp [hne])]
        exact hv.val i th' hit hsees o ob ho hlive
    · rw [lastValue_append, hv.fresh i o ho]
      exact lstep_fresh hl i ho none
  | create hth hu hn =>
    obtain ⟨h1, h2, h3, h4, k, h5, h6⟩ := tab_newKey hi.tab hn
    have hlast : ∀ i o, lastValue i o (tr ++ es) = lastValue i o tr := fun i o => lastValue_other (by rw [h3]; simp [evThread])
    refine ⟨fun i th' hit hsees o ob ho hlive => ?_, fun i o ho => ?_⟩
    · rw [h2] at hit
      rw [h5] at ho
      rw [hlast]
      rcases get_append_one ho with ho | ⟨rfl, rfl⟩
      · exact hv.val i th' hit hsees o ob ho hlive
      · rw [hv.fresh i _ (Nat.le_refl _)]
        cases hg : getSpecific th' k with
        | none => rfl
        | some p =>
          unfold getSpecific at hg
          split at hg
          · cases hg
          · next c hc =>
            obtain ⟨y, y1, y2, y3⟩ := ((hi.thr i th' hit).slot c hc).owner k p (getValue_iff.mp hg)
            exact absurd y3 (h6 p.obj y y1 y2)
    · rw [hlast]; exact hv.fresh i o (by rw [h5] at ho; simp at ho; omega)
  | @destroy th o₀ ob₀ hth hu ho₀ hl₀ =>
    have hd := deleted_of_deleteKey (t := t) hi.tab ho₀ hl₀
    have hlast : ∀ i o, lastValue i o (tr ++ (deleteKey s t o₀ ob₀).2) = lastValue i o tr :=
      fun i o => lastValue_other (fun e he => by rw [deleted_events hd e he]; simp)
    generalize (deleteKey s t o₀ ob₀).1 = s₁ at *
    generalize (deleteKey s t o₀ ob₀).2 = es₁ at *
    have hlive' : ∀ (o : Nat) ob, s₁.objs[o]? = some ob → ob.live = true → s.objs[o]? = some ob ∧ ob.key ≠ ob₀.key := by
      intro o ob ho hl
      have : (s.objs.set o₀ { ob₀ with live := false })[o]? = some ob := by cases hd <;> exact ho
      rcases objs_set ho₀ this with ⟨_, rfl⟩ | ⟨hne, h⟩
      · cases hl
      · exact ⟨h, fun hk => hne (hi.tab.uniq o o₀ ob ob₀ h ho₀ (.inl hl) (.inl hl₀) hk)⟩
    refine ⟨fun i th' hit hsees o ob ho hlive => ?_, fun i o ho => ?_⟩
    · obtain ⟨ho', hk⟩ := hlive' o ob ho hlive
      rw [hlast]
      cases hd with
      | keep => exact hv.val i th' hit hsees o ob ho' hlive
      | forget =>
        simp only [List.getElem?_map, Option.map_eq_some_iff] at hit
        obtain ⟨th₀, h1, rfl⟩ := hit
        rw [getSpecific_clear, if_neg hk]
        exact hv.val i th₀ h1 hsees o ob ho' hlive
      | run =>
        obtain ⟨th₁, h1, h2⟩ := get_addTodo hit
        simp only [List.getElem?_map, Option.map_eq_some_iff] at h1
        obtain ⟨th₀, h3, rfl⟩ := h1
        have e1 : getSpecific th' ob.key = getSpecific (clearThread ob₀.key th₀) ob.key := by
          rcases h2 with ⟨_, rfl⟩ | ⟨_, rfl⟩ <;> rfl
        have e2 : th'.ph = th₀.ph := by rcases h2 with ⟨_, rfl⟩ | ⟨_, rfl⟩ <;> rfl
        rw [e1, getSpecific_clear, if_neg hk]
        exact hv.val i th₀ h3 (e2 ▸ hsees) o ob ho' hlive
    · rw [hlast]
      exact hv.fresh i o (by
        have : s₁.objs.length = s.objs.length := by cases hd <;> simp
        omega)

theorem val_exec {cfg n tr s} (h : Exec (step cfg) (init n) tr s) : Val cfg tr s := by
  induction h with
  | init =>
    refine ⟨fun t th ht _ o ob ho => ?_, fun _ _ _ => rfl⟩
    simp [init] at ho
  | snoc hx hs ih => exact val_step (inv_exec hx).1 ih hs

end Verif.Tss
