import Verif.Proof.TssGone
import Verif.Spec.TssExit

/-! # Simulations of the exit processing of one thread -/

namespace Verif.Tss

/-- The thread an event belongs to. -/
def evOf : Ev → Option Nat
  | .created _ | .destroyed _ | .dropped _ _ | .ub => none
  | .got t _ _ | .stored t _ | .cleared t _ | .released t _ | .cleaned t _ _ _ | .registered t _ | .ran t _ | .notifyRegistered t _
  | .unlocked t _ | .notified t _ | .exiting t | .ended t => some t

theorem lstep_evOf {cfg objs table t th th' es} (h : LStep cfg objs table t th th' es) : ∀ e ∈ es, evOf e = none ∨ evOf e = some t := by
  intro e he
  cases h with
  | @reset o ob v hu ho hl =>
    unfold doReset at he
    dsimp only at he
    split at he
    · simp at he
    · rw [List.mem_append] at he
      rcases he with he | he
      · split at he <;> simp at he <;> subst he <;> simp [evOf]
      · split at he
        · split at he <;> simp at he <;> subst he <;> simp [evOf]
        · simp at he
  | @release o ob hu ho hl =>
    unfold doRelease at he
    split at he
    · simp at he; rcases he with he | he <;> subst he <;> simp [evOf]
    · simp at he
  | notifyOne h => simp at he; rcases he with he | he <;> subst he <;> simp [evOf]
  | _ => simp at he <;> (try subst he) <;> simp [evOf]

theorem foldl_same {A : Type} {f : A → Ev → A} {es : List Ev} {a : A} (h : ∀ e ∈ es, f a e = a) : es.foldl f a = a := by
  induction es with
  | nil => rfl
  | cons e es ih =>
    rw [List.foldl_cons, h e (by simp)]
    exact ih (fun e' he' => h e' (by simp [he']))

def start : Thread := ⟨none, none, [], .running, false⟩

/-- A relation between a thread and what a specification has read of its events is kept by all steps if it is kept by those of the thread. -/
theorem sim_exec {A : Type} {cfg : Cfg} {t : Nat} {f : A → Ev → A} {a₀ : A} {R : Thread → A → Prop} (h0 : R start a₀)
    (hother : ∀ a e, evOf e ≠ some t → f a e = a)
    (hloc : ∀ {objs table th th' es a}, TI cfg objs table th → R th a → LStep cfg objs table t th th' es → Ev.ub ∉ es → R th' (es.foldl f a))
    (hclear : ∀ k th a, R th a → R (clearThread k th) a) (htodo : ∀ th l a, R th a → R { th with todo := l ++ th.todo } a)
    {n tr s} (h : Exec (step cfg) (init n) tr s) : ∀ th, s.threads[t]? = some th → R th (tr.foldl f a₀) := by
  induction h with
  | init =>
    intro th ht
    have := get_replicate ht
    subst this
    exact h0
  | @snoc tr s s' l es hx hs ih =>
    have hi := (inv_exec hx).1
    have hub := (inv_step hi hs).2
    obtain ⟨t₀, op⟩ := l
    intro th' hit
    rw [List.foldl_append]
    have hno : (∀ e ∈ es, evOf e ≠ some t) → ∀ a, es.foldl f a = a := fun h a => foldl_same (fun e he => hother a e (h e he))
    cases sstep_of_step hs with
    | localStep hth hl =>
      rcases get_set_cases hit with ⟨rfl, rfl⟩ | ⟨hne, hit⟩
      · exact hloc (hi.thr _ _ hth) (ih _ hth) hl hub
      · rw [hno (fun e he => by rcases lstep_evOf hl e he with h | h <;> rw [h] <;> simp [hne])]
        exact ih th' hit
    | create hth hu hn =>
      obtain ⟨_, h2, h3, _⟩ := tab_newKey hi.tab hn
      rw [hno (by rw [h3]; simp [evOf])]
      rw [h2] at hit
      exact ih th' hit
    | @destroy th o₀ ob₀ hth hu ho₀ hl₀ =>
      have hd := deleted_of_deleteKey (t := t₀) hi.tab ho₀ hl₀
      generalize (deleteKey s t₀ o₀ ob₀).1 = s₁ at *
      generalize (deleteKey s t₀ o₀ ob₀).2 = es₁ at *
      have hev : ∀ e ∈ es₁, evOf e ≠ some t := by
        intro e he
        cases hd with
        | keep => simp at he; subst he; simp [evOf]
        | run => simp at he; subst he; simp [evOf]
        | forget =>
          rcases List.mem_cons.mp he with rfl | he
          · simp [evOf]
          · rw [List.mem_map] at he; obtain ⟨q, _, rfl⟩ := he; simp [evOf]
      rw [hno hev]
      cases hd with
      | keep => exact ih th' hit
      | forget =>
        simp only [List.getElem?_map, Option.map_eq_some_iff] at hit
        obtain ⟨th₀, h1, rfl⟩ := hit
        exact hclear _ _ _ (ih th₀ h1)
      | run =>
        obtain ⟨th₁, h1, h2⟩ := get_addTodo hit
        simp only [List.getElem?_map, Option.map_eq_some_iff] at h1
        obtain ⟨th₀, h3, rfl⟩ := h1
        have := hclear ob₀.key _ _ (ih th₀ h3)
        rcases h2 with ⟨_, rfl⟩ | ⟨_, rfl⟩
        · exact htodo _ _ _ this
        · exact this

/-! ## callbacks -/

def slotAtExit (th : Thread) : List Nat :=
  match th.slot with
  | some c => c.atExit
  | none => []

def pendingOf : Phase → List Nat
  | .atExit p _ => p
  | _ => []

theorem slotAtExit_clear (k th) : slotAtExit (clearThread k th) = slotAtExit th := by
  unfold slotAtExit clearThread
  cases th.slot with
  | none => rfl
  | some c => exact clearKey_atExit k c

theorem slotAtExit_ensure (th : Thread) : slotAtExit th = (ensureCtx th).atExit := by
  unfold slotAtExit ensureCtx
  cases th.slot <;> rfl

theorem slotAtExit_setSpecific (th k x) : slotAtExit (setSpecific th k x) = slotAtExit th := by
  rw [slotAtExit_ensure th]; rfl

inductive CbR (cfg : Cfg) (th : Thread) : Option Callbacks → Prop
  | normal {c} : c.batch = pendingOf th.ph → c.later = (slotAtExit th).reverse → CbR cfg th (some c)
  /-- a new batch has been taken, and none of it has been run -/
  | fresh {c r} : c.batch = [] → th.ph = .atExit c.later r → c.later ≠ [] → slotAtExit th = [] → th.cb = false → CbR cfg th (some c)
  | over {c} : cfg = .windows → th.ph = .done → CbR cfg th (some c)

theorem cbNext_none {t : Nat} {c e} (h : ∀ id, e ≠ .registered t id ∧ e ≠ .ran t id) : cbNext t (some c) e = some c := by
  cases e with
  | registered t' id => have := (h id).1; simp only [cbNext]; split <;> simp_all
  | ran t' id => have := (h id).2; simp only [cbNext]; split <;> simp_all
  | _ => rfl

theorem cbR_slot {cfg th th' a} (h : CbR cfg th a) (h1 : th'.ph = th.ph) (h2 : slotAtExit th' = slotAtExit th) (h3 : th'.cb = th.cb) : CbR cfg th' a := by
  cases h with
  | normal a b => exact .normal (by rw [h1]; exact a) (by rw [h2]; exact b)
  | fresh a b c d e => exact .fresh a (by rw [h1]; exact b) c (by rw [h2]; exact d) (by rw [h3]; exact e)
  | over a b => exact .over a (by rw [h1]; exact b)

theorem cb_fold_none {t : Nat} {a} {es : List Ev} (h : ∀ e ∈ es, ∀ id, e ≠ .registered t id ∧ e ≠ .ran t id) : es.foldl (cbNext t) a = a :=
  foldl_same fun e he => by
    cases a with
    | none => rfl
    | some c => exact cbNext_none (h e he)

theorem reset_events {t o ob th v e} (he : e ∈ (doReset t o ob th v).2) :
    (∃ x, e = .stored t ⟨o, x⟩) ∨ e = .cleared t o ∨ (∃ p, e = .cleaned t .replaced o p) ∨ ∃ p, e = .dropped t p := by
  unfold doReset at he
  dsimp only at he
  split at he
  · simp at he
  · rw [List.mem_append] at he
    rcases he with he | he
    · split at he
      · simp at he; exact .inl ⟨_, he⟩
      · simp at he; exact .inr (.inl he)
    · split at he
      · split at he
        · simp at he; exact .inr (.inr (.inl ⟨_, he⟩))
        · simp at he; exact .inr (.inr (.inr ⟨_, he⟩))
      · simp at he

theorem release_events {t o ob th e} (he : e ∈ (doRelease t o ob th).2) : e = .cleared t o ∨ ∃ p, e = .released t p := by
  unfold doRelease at he
  split at he
  · simp at he
    rcases he with he | he
    · exact .inl he
    · exact .inr ⟨_, he⟩
  · simp at he

theorem doReset_slotAtExit {t o ob th v} : slotAtExit (doReset t o ob th v).1 = slotAtExit th := by
  unfold doReset
  dsimp only
  split
  · rfl
  · exact slotAtExit_setSpecific _ _ _

theorem doRelease_slotAtExit {t o ob th} : slotAtExit (doRelease t o ob th).1 = slotAtExit th := by
  unfold doRelease
  split
  · exact slotAtExit_setSpecific _ _ _
  · rfl

theorem doReset_cb {t o ob th v} : (doReset t o ob th v).1.cb = th.cb := by unfold doReset; dsimp only; split <;> rfl
theorem doRelease_cb {t o ob th} : (doRelease t o ob th).1.cb = th.cb := by unfold doRelease; split <;> rfl

/-- In a phase without callbacks pending the relation is the normal one. -/
theorem cbR_normal {cfg th c} (h : CbR cfg th (some c)) (h1 : ∀ p r, th.ph = .atExit p r → p = []) (h2 : th.ph ≠ .done) :
    c.batch = [] ∧ c.later = (slotAtExit th).reverse := by
  cases h with
  | normal a b =>
    refine ⟨?_, b⟩
    rw [a]
    cases hp : th.ph with
    | atExit p r => exact h1 p r hp
    | _ => rfl
  | fresh a b c d e => exact absurd (h1 _ _ b) c
  | over a b => exact absurd b h2

theorem cbR_local {cfg objs table t th th' es a} (hti : TI cfg objs table th) (h : CbR cfg th a) (hs : LStep cfg objs table t th th' es) :
    CbR cfg th' (es.foldl (cbNext t) a) := by
  cases a with
  | none => cases h
  | some c =>
  -- a new batch of callbacks is taken
  have take : ∀ {th₁ : Thread} {l : List Nat} {r : Nat}, c.batch = [] → c.later = l.reverse → th₁.ph = .atExit l.reverse r → slotAtExit th₁ = [] → th₁.cb = false →
      CbR cfg th₁ (some c) := by
    intro th₁ l r h1 h2 h3 h4 h5
    by_cases e : l = []
    · subst e; exact .normal (by rw [h1, h3]; rfl) (by rw [h2, h4])
    · exact .fresh h1 (by rw [h3, h2]) (by rw [h2]; simpa using e) h4 h5
  -- there is no callback pending before or after
  have quiet : ∀ {th₁ : Thread}, (∀ p r, th.ph = .atExit p r → p = []) → th.ph ≠ .done → pendingOf th₁.ph = [] → slotAtExit th₁ = slotAtExit th →
      CbR cfg th₁ (some c) := by
    intro th₁ h1 h2 h3 h4
    obtain ⟨a, b⟩ := cbR_normal h h1 h2
    exact .normal (by rw [a, h3]) (by rw [b, h4])
  have cbfalse : cbPhase th.ph = false → th.cb = false := by
    intro hp
    cases hcb : th.cb with
    | false => rfl
    | true => have := hti.cb hcb; rw [hp] at this; cases this
  cases hs with
  | beginExit hp _ => exact quiet (by rw [hp]; simp) (by rw [hp]; simp) rfl rfl
  | tlsEnd _ hp => exact quiet (by rw [hp]; simp) (by rw [hp]; simp) rfl rfl
  | noCtx _ hp => exact quiet (by rw [hp]; simp) (by rw [hp]; simp) rfl rfl
  | exhausted _ _ _ hp => exact quiet (by rw [hp]; simp) (by rw [hp]; simp) rfl rfl
  | @enterP r rounds c' hc hsl hr hp _ =>
    obtain ⟨a, b⟩ := cbR_normal h (by rw [hp]; simp) (by rw [hp]; simp)
    refine take (l := c'.atExit) (r := r) a ?_ rfl rfl (cbfalse (by rw [hp]; rfl))
    rw [b]; unfold slotAtExit; rw [hsl]
  | @enterW r c' hc hsl hp _ =>
    obtain ⟨a, b⟩ := cbR_normal h (by rw [hp]; simp) (by rw [hp]; simp)
    refine take (l := c'.atExit) (r := r) a ?_ rfl rfl (cbfalse (by rw [hp]; rfl))
    rw [b]; unfold slotAtExit; rw [hsl]
  | @ran id rest r hp =>
    cases h with
    | normal a b =>
      rw [hp] at a
      simp only [pendingOf] at a
      have : [Ev.ran t id].foldl (cbNext t) (some c) = some ⟨rest, c.later⟩ := by
        obtain ⟨batch, later⟩ := c
        dsimp only at a; subst a
        simp [cbNext]
      rw [this]
      exact .normal rfl b
    | fresh a b ne d e =>
      rw [hp] at b
      have hl : c.later = id :: rest := by injection b with b1 b2; exact b1.symm
      have : [Ev.ran t id].foldl (cbNext t) (some c) = some ⟨rest, []⟩ := by
        obtain ⟨batch, later⟩ := c
        dsimp only at a hl; subst a; subst hl
        simp [cbNext]
      rw [this]
      refine .normal rfl ?_
      have e : slotAtExit { th with ph := Phase.atExit rest r, cb := true } = slotAtExit th := rfl
      rw [e, d]; rfl
    | over a b => rw [hp] at b; cases b
  | toTls hp _ _ => exact quiet (by rw [hp]; intro p r h; cases h; rfl) (by rw [hp]; simp) rfl rfl
  | @swapAtExit r c' hp hv hc =>
    obtain ⟨a, b⟩ := cbR_normal h (by rw [hp]; intro p r h; cases h; rfl) (by rw [hp]; simp)
    cases hd : th.dying with
    | none =>
      have hsl : th.slot = some c' := by unfold victim at hv; rw [hd] at hv; exact hv
      refine take (l := c'.atExit) (r := r) a ?_ rfl ?_ rfl
      · rw [b]; unfold slotAtExit; rw [hsl]
      · simp [slotAtExit, setVictim, hd]
    | some d =>
      have : d = c' := by unfold victim at hv; rw [hd] at hv; cases hv; rfl
      subst this
      exact absurd (hti.dyingEmpty d hd) hc
  | tlsSkip hp => exact quiet (by rw [hp]; simp) (by rw [hp]; simp) rfl rfl
  | tlsClean hp _ _ => exact quiet (by rw [hp]; simp) (by rw [hp]; simp) rfl rfl
  | tlsDrop hp _ _ => exact quiet (by rw [hp]; simp) (by rw [hp]; simp) rfl rfl
  | toNotify hp _ _ _ => exact quiet (by rw [hp]; simp) (by rw [hp]; simp) rfl rfl
  | @swapTls k r c' hp hv hc =>
    refine quiet (by rw [hp]; simp) (by rw [hp]; simp) rfl ?_
    cases hd : th.dying with
    | none =>
      have hsl : th.slot = some c' := by unfold victim at hv; rw [hd] at hv; exact hv
      simp [slotAtExit, setVictim, hd, hsl]
    | some d => simp [slotAtExit, setVictim, hd]
  | notifyOne hp => exact quiet (by rw [hp]; simp) (by rw [hp]; simp) rfl rfl
  | endW hc hp => exact .over hc rfl
  | endP hc hp => exact quiet (by rw [hp]; simp) (by rw [hp]; simp) rfl rfl
  | ubAtExit _ _ => exact h
  | ubTls _ _ => exact h
  | ubTable _ _ => exact h
  | clean _ => exact cbR_slot h rfl rfl rfl
  | get _ _ _ => exact h
  | reset =>
    rw [cb_fold_none (fun e he id => by rcases reset_events he with ⟨x, rfl⟩ | rfl | ⟨p, rfl⟩ | ⟨p, rfl⟩ <;> simp)]
    exact cbR_slot h doReset_ph doReset_slotAtExit doReset_cb
  | release =>
    rw [cb_fold_none (fun e he id => by rcases release_events he with rfl | ⟨p, rfl⟩ <;> simp)]
    exact cbR_slot h doRelease_ph doRelease_slotAtExit doRelease_cb
  | @register id hu =>
    have hf : [Ev.registered t id].foldl (cbNext t) (some c) = some ⟨c.batch, id :: c.later⟩ := by simp [cbNext]
    rw [hf]
    cases h with
    | normal a b =>
      refine .normal a ?_
      dsimp only
      rw [b, slotAtExit_ensure]
      simp [slotAtExit]
    | fresh a b ne d e =>
      unfold userCode at hu
      rw [e, b] at hu
      simp at hu
    | over a b => exact absurd b (not_done_of_user hti hu)
  | notifyReg hu => exact cbR_slot h rfl (by rw [slotAtExit_ensure th]; rfl) rfl

theorem cbR_exec {cfg n tr s} (h : Exec (step cfg) (init n) tr s) (t : Nat) : ∀ th, s.threads[t]? = some th → CbR cfg th (callbacks t tr) := by
  refine sim_exec (R := CbR cfg) (.normal rfl rfl) (fun a e he => ?_) (fun hti h hl _ => cbR_local hti h hl) (fun k th a h => cbR_slot h rfl (slotAtExit_clear k th) rfl)
    (fun th l a h => cbR_slot h rfl rfl rfl) h
  cases a with
  | none => rfl
  | some c => exact cbNext_none (fun id => ⟨fun h => he (by rw [h]; rfl), fun h => he (by rw [h]; rfl)⟩)

/-- Callbacks are run, or remain. -/
theorem callbacks_count {t : Nat} (id : Nat) {tr c} (h : callbacks t tr = some c) :
    tr.countP (isRegistered t id) = tr.countP (isRan t id) + c.batch.count id + c.later.count id := by
  have gen : ∀ (tr : List Ev) (c₀ c : Callbacks), tr.foldl (cbNext t) (some c₀) = some c →
      tr.countP (isRegistered t id) + c₀.batch.count id + c₀.later.count id = tr.countP (isRan t id) + c.batch.count id + c.later.count id := by
    intro tr
    induction tr with
    | nil => intro c₀ c h; cases h; rfl
    | cons e tr ih =>
      intro c₀ c h
      rw [List.foldl_cons] at h
      have hnone : ∀ tr : List Ev, tr.foldl (cbNext t) none = none := by
        intro tr
        induction tr with
        | nil => rfl
        | cons e tr ih => exact ih
      cases hc : cbNext t (some c₀) e with
      | none => rw [hc, hnone] at h; cases h
      | some c₁ =>
        rw [hc] at h
        have := ih c₁ c h
        obtain ⟨batch, later⟩ := c₀
        cases e with
        | registered t' id' =>
          simp only [cbNext] at hc
          by_cases e : t' = t
          · rw [if_pos e] at hc
            cases hc
            simp only [List.countP_cons, isRegistered, isRan, e, true_and, List.count_cons] at this ⊢
            by_cases e2 : id' = id <;> simp [e2] at this ⊢ <;> omega
          · rw [if_neg e] at hc
            cases hc
            simp only [List.countP_cons, isRegistered, isRan, e, false_and] at this ⊢
            simpa using this
        | ran t' id' =>
          simp only [cbNext] at hc
          by_cases e : t' = t
          · rw [if_pos e] at hc
            cases batch with
            | cons x rest =>
              dsimp only at hc
              split at hc
              · next hx =>
                subst hx
                cases hc
                simp only [List.countP_cons, isRegistered, isRan, e, true_and, List.count_cons] at this ⊢
                by_cases e2 : x = id <;> simp [e2] at this ⊢ <;> omega
              · cases hc
            | nil =>
              cases later with
              | nil => cases hc
              | cons x rest =>
                dsimp only at hc
                split at hc
                · next hx =>
                  subst hx
                  cases hc
                  simp only [List.countP_cons, isRegistered, isRan, e, true_and, List.count_cons, List.count_nil] at this ⊢
                  by_cases e2 : x = id <;> simp [e2] at this ⊢ <;> omega
                · cases hc
          · rw [if_neg e] at hc
            cases hc
            simp only [List.countP_cons, isRegistered, isRan, e, false_and] at this ⊢
            simpa using this
        | _ => cases hc; simpa [List.countP_cons, isRegistered, isRan] using this
  have := gen tr ⟨[], []⟩ c h
  simpa using this

end Verif.Tss
