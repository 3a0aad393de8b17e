import Verif.Proof.TssValue

/-! # Every value stored is disposed of once -/

namespace Verif.Tss

/-! ## after the values have been cleaned up -/

def Drained (th : Thread) : Prop := ∀ p r, th.ph = .notify p r → ∀ c, victim th = some c → c.storage = []

theorem not_notify_of_user {cfg objs table th} (h : TI cfg objs table th) (hu : userCode th = true) (p r) : th.ph ≠ .notify p r := by
  intro hp
  unfold userCode at hu
  rw [Bool.or_eq_true, decide_eq_true_eq] at hu
  rcases hu with hu | hu
  · rw [hp] at hu; cases hu
  · have := h.cb hu; rw [hp] at this; cases this

theorem doReset_ph {t o ob th v} : (doReset t o ob th v).1.ph = th.ph := by unfold doReset; dsimp only; split <;> rfl
theorem doRelease_ph {t o ob th} : (doRelease t o ob th).1.ph = th.ph := by unfold doRelease; split <;> rfl

theorem drained_local {cfg objs table t th th' es} (hti : TI cfg objs table th) (h : Drained th) (hs : LStep cfg objs table t th th' es) : Drained th' := by
  intro p r hp c hc
  cases hs with
  | notifyOne h1 => exact h _ _ h1 c hc
  | toNotify h1 h2 h3 h4 =>
    have : victim th = some c := hc
    rw [h2] at this; cases this; exact h3
  | clean h1 => exact h p r hp c hc
  | get => exact h p r hp c hc
  | reset hu => exact absurd (doReset_ph ▸ hp) (not_notify_of_user hti hu p r)
  | release hu => exact absurd (doRelease_ph ▸ hp) (not_notify_of_user hti hu p r)
  | register hu => exact absurd hp (not_notify_of_user hti hu p r)
  | notifyReg hu => exact absurd hp (not_notify_of_user hti hu p r)
  | ubAtExit h1 _ => exact h p r hp c hc
  | ubTls h1 _ => exact h p r hp c hc
  | ubTable h1 _ => exact h p r hp c hc
  | _ => cases hp

theorem clearKey_empty {k c} (h : c.storage = []) : (clearKey k c).storage = [] := by
  have := clearKey_length k c
  rw [h] at this
  exact List.length_eq_zero_iff.mp this

theorem victim_clear {k th c} (h : victim (clearThread k th) = some c) : ∃ c', victim th = some c' ∧ c = clearKey k c' := by
  unfold victim clearThread at *
  dsimp only at h
  cases hd : th.dying with
  | none =>
    rw [hd] at h
    dsimp only [Option.map_none] at h
    rw [Option.map_eq_some_iff] at h
    obtain ⟨c', h1, h2⟩ := h
    exact ⟨c', h1, h2.symm⟩
  | some d => rw [hd] at h; cases h; exact ⟨d, rfl, rfl⟩

theorem drained_clear {k th} (h : Drained th) : Drained (clearThread k th) := by
  intro p r hp c hc
  obtain ⟨c', h1, rfl⟩ := victim_clear hc
  exact clearKey_empty (h p r hp c' h1)

theorem drained_step {cfg s l s' es} (hi : Inv cfg s) (h : ∀ (t : Nat) th, s.threads[t]? = some th → Drained th)
    (hs : step cfg s l = some (s', es)) : ∀ (t : Nat) th, s'.threads[t]? = some th → Drained th := by
  obtain ⟨t, op⟩ := l
  intro i th' hit
  cases sstep_of_step hs with
  | localStep hth hl =>
    rcases get_set_cases hit with ⟨rfl, rfl⟩ | ⟨_, hit⟩
    · exact drained_local (hi.thr _ _ hth) (h _ _ hth) hl
    · exact h i th' hit
  | create hth hu hn =>
    obtain ⟨_, h2, _⟩ := tab_newKey hi.tab hn
    rw [h2] at hit
    exact h i th' hit
  | @destroy th o₀ ob₀ hth hu ho₀ hl₀ =>
    have hd := deleted_of_deleteKey (t := t) hi.tab ho₀ hl₀
    generalize (deleteKey s t o₀ ob₀).1 = s₁ at *
    generalize (deleteKey s t o₀ ob₀).2 = es₁ at *
    cases hd with
    | keep => exact h i th' hit
    | forget =>
      simp only [List.getElem?_map, Option.map_eq_some_iff] at hit
      obtain ⟨th₀, h1, rfl⟩ := hit
      exact drained_clear (h i th₀ h1)
    | run =>
      obtain ⟨th₁, h1, h2⟩ := get_addTodo hit
      simp only [List.getElem?_map, Option.map_eq_some_iff] at h1
      obtain ⟨th₀, h3, rfl⟩ := h1
      have := drained_clear (k := ob₀.key) (h i th₀ h3)
      rcases h2 with ⟨_, rfl⟩ | ⟨_, rfl⟩
      · exact this
      · exact this

theorem drained_exec {cfg n tr s} (h : Exec (step cfg) (init n) tr s) : ∀ (t : Nat) th, s.threads[t]? = some th → Drained th := by
  induction h with
  | init =>
    intro t th ht
    have := get_replicate ht
    subst this
    intro p r hp
    cases hp
  | snoc hx hs ih => exact drained_step (inv_exec hx).1 ih hs

/-! ## counting -/

theorem inStorage_none (p : Ptr) (n : Nat) : inStorage p (List.replicate n none) = 0 := by
  unfold inStorage
  rw [List.countP_eq_zero]
  intro x hx
  rw [(List.mem_replicate.mp hx).2]
  simp

theorem inStorage_set {p : Ptr} {l : List (Option Ptr)} {k : Nat} {a b : Option Ptr} (h : l[k]? = some a) :
    inStorage p (l.set k b) + b2n (decide (a = some p)) = inStorage p l + b2n (decide (b = some p)) :=
  countP_set (p := fun x => decide (x = some p)) h

theorem inStorage_setValue (p : Ptr) (c : Ctx) (k : Nat) (x : Option Ptr) :
    inStorage p (setValue c k x).storage + b2n (decide (getValue c k = some p)) = inStorage p c.storage + b2n (decide (x = some p)) := by
  unfold setValue
  dsimp only
  by_cases h : c.storage.length ≤ k
  · rw [if_pos h]
    have e : (c.storage ++ List.replicate (k + 1 - c.storage.length) (none : Option Ptr))[k]? = some none := by
      rw [List.getElem?_append_right h, List.getElem?_replicate, if_pos (by omega)]
    have h1 := inStorage_set (p := p) (b := x) e
    have h2 : inStorage p (c.storage ++ List.replicate (k + 1 - c.storage.length) (none : Option Ptr)) = inStorage p c.storage := by
      have := inStorage_none p (k + 1 - c.storage.length)
      unfold inStorage at *
      rw [List.countP_append, this, Nat.add_zero]
    have h3 : getValue c k = none := by unfold getValue; rw [List.getElem?_eq_none h]
    rw [h3]
    rw [h2] at h1
    exact h1
  · rw [if_neg h]
    have hlt : k < c.storage.length := by omega
    have e : c.storage[k]? = some c.storage[k] := List.getElem?_eq_getElem hlt
    have h1 := inStorage_set (p := p) (b := x) e
    have h3 : getValue c k = c.storage[k] := by unfold getValue; rw [e]
    rw [h3]; exact h1

theorem inCtx_setSpecific (p : Ptr) (th : Thread) (k : Nat) (x : Option Ptr) :
    inCtx p (setSpecific th k x).slot + b2n (decide (getSpecific th k = some p)) = inCtx p th.slot + b2n (decide (x = some p)) := by
  have := inStorage_setValue p (ensureCtx th) k x
  obtain ⟨slot, dying, todo, ph, cb⟩ := th
  cases slot with
  | none => simpa [inCtx, inStorage, Ctx.empty, getValue, getSpecific, setSpecific, ensureCtx] using this
  | some c => exact this

theorem inCtx_clear (p : Ptr) (o : Option Ctx) (k : Nat) :
    inCtx p (o.map (clearKey k)) + ((o.bind (getValue · k)).toList.countP fun x => decide (x = p)) = inCtx p o := by
  cases o with
  | none => rfl
  | some c =>
    dsimp only [Option.map_some, Option.bind_some, inCtx]
    unfold clearKey
    split
    · next q hq =>
      have h1 := inStorage_set (p := p) (b := none) hq
      have h2 : getValue c k = some q := getValue_iff.mpr hq
      rw [h2]
      by_cases e : q = p
      · subst e; simpa using h1
      · simpa [e] using h1
    · next hq =>
      have h2 : getValue c k = none := by
        cases hg : getValue c k with
        | none => rfl
        | some q => exact absurd (getValue_iff.mp hg) (hq q)
      rw [h2]; rfl

theorem heldBy_clear (p : Ptr) (th : Thread) (k : Nat) :
    heldBy p (clearThread k th) + ((takenFrom k th).countP fun x => decide (x = p)) = heldBy p th := by
  have h1 := inCtx_clear p th.slot k
  have h2 := inCtx_clear p th.dying k
  unfold heldBy clearThread takenFrom
  dsimp only
  rw [List.countP_append]
  omega

theorem stored_append (p a b) : stored p (a ++ b) = stored p a + stored p b := List.countP_append
theorem disposed_append (p a b) : disposed p (a ++ b) = disposed p a + disposed p b := List.countP_append

theorem acct_reset {t o ob th v} (p : Ptr) :
    heldBy p th + stored p (doReset t o ob th v).2 = heldBy p (doReset t o ob th v).1 + disposed p (doReset t o ob th v).2 := by
  unfold doReset
  dsimp only
  by_cases he : (getSpecific th ob.key).map Ptr.v = v
  · rw [if_pos he]; simp [stored, disposed]
  · rw [if_neg he]
    have h1 := inCtx_setSpecific p th ob.key (v.map (Ptr.mk o))
    dsimp only
    rw [stored_append, disposed_append]
    have e1 : (setSpecific th ob.key (v.map (Ptr.mk o))).dying = th.dying := rfl
    have e2 : (setSpecific th ob.key (v.map (Ptr.mk o))).todo = th.todo := rfl
    have e3 : (setSpecific th ob.key (v.map (Ptr.mk o))).ph = th.ph := rfl
    unfold heldBy
    rw [e1, e2, e3]
    cases hg : getSpecific th ob.key with
    | none =>
      rw [hg] at h1
      cases v with
      | none => simp [stored, disposed, isStored, isDisposed] at h1 ⊢; omega
      | some x => simp [stored, disposed, isStored, isDisposed, List.countP_cons, b2n] at h1 ⊢; omega
    | some q =>
      rw [hg] at h1
      cases v with
      | none => by_cases hc : ob.cleanup = true <;> simp [hc, stored, disposed, isStored, isDisposed, List.countP_cons, b2n] at h1 ⊢ <;> omega
      | some x => by_cases hc : ob.cleanup = true <;> simp [hc, stored, disposed, isStored, isDisposed, List.countP_cons, b2n] at h1 ⊢ <;> omega

theorem acct_release {t o ob th} (p : Ptr) :
    heldBy p th + stored p (doRelease t o ob th).2 = heldBy p (doRelease t o ob th).1 + disposed p (doRelease t o ob th).2 := by
  unfold doRelease
  split
  · next q hq =>
    have h1 := inCtx_setSpecific p th ob.key none
    rw [hq] at h1
    have e1 : (setSpecific th ob.key none).dying = th.dying := rfl
    have e2 : (setSpecific th ob.key none).todo = th.todo := rfl
    have e3 : (setSpecific th ob.key none).ph = th.ph := rfl
    unfold heldBy
    dsimp only
    rw [e1, e2, e3]
    have a1 : stored p [.cleared t o, .released t q] = 0 := rfl
    have a2 : disposed p [.cleared t o, .released t q] = b2n (decide (some q = some p)) := by
      simp [disposed, isDisposed, b2n, List.countP_cons]
    have a3 : b2n (decide ((none : Option Ptr) = some p)) = 0 := rfl
    rw [a3] at h1
    rw [a1, a2]
    omega
  · rfl

theorem stored_zero {p es} (h : ∀ e ∈ es, isStored p e = false) : stored p es = 0 := by
  unfold stored; rw [List.countP_eq_zero]; intro e he; rw [h e he]; simp

theorem disposed_zero {p es} (h : ∀ e ∈ es, isDisposed p e = false) : disposed p es = 0 := by
  unfold disposed; rw [List.countP_eq_zero]; intro e he; rw [h e he]; simp

theorem inCtx_ensure (p : Ptr) (th : Thread) : inStorage p (ensureCtx th).storage = inCtx p th.slot := by
  unfold ensureCtx
  cases th.slot <;> rfl

theorem inCtx_victim {th c} (p : Ptr) (hv : victim th = some c) (c' : Ctx) :
    inCtx p (setVictim th (some c')).slot + inCtx p (setVictim th (some c')).dying + inStorage p c.storage =
      inCtx p th.slot + inCtx p th.dying + inStorage p c'.storage := by
  unfold victim at hv
  unfold setVictim
  cases hd : th.dying with
  | none =>
    rw [hd] at hv
    dsimp only at hv ⊢
    rw [hv]
    simp only [inCtx]
    omega
  | some d =>
    rw [hd] at hv
    cases hv
    simp only [inCtx]
    omega

/-- Values held by a thread are disposed of or kept by each of its steps. -/
theorem acct_local {cfg objs table t th th' es} (hti : TI cfg objs table th) (hdr : Drained th) (hs : LStep cfg objs table t th th' es)
    (hub : Ev.ub ∉ es) (p : Ptr) : heldBy p th + stored p es = heldBy p th' + disposed p es := by
  have sv : ∀ (c c' : Ctx) ph cb, victim th = some c →
      heldBy p { setVictim th (some c') with ph := ph, cb := cb } + inStorage p c.storage + inPhase p th.ph =
      heldBy p th + inStorage p c'.storage + inPhase p ph := by
    intro c c' ph cb hv
    have := inCtx_victim p hv c'
    have e : (setVictim th (some c')).todo = th.todo := by unfold setVictim; split <;> rfl
    unfold heldBy
    dsimp only
    rw [e]
    omega
  cases hs with
  | beginExit hp _ => simp [stored, disposed, isStored, isDisposed, heldBy, hp, inPhase]
  | tlsEnd _ hp => simp [stored, disposed, isStored, isDisposed, heldBy, hp, inPhase]
  | noCtx _ hp => simp [stored, disposed, isStored, isDisposed, heldBy, hp, inPhase]
  | exhausted _ _ _ hp => simp [stored, disposed, isStored, isDisposed, heldBy, hp, inPhase]
  | enterP hc hsl _ hp _ =>
    have hd := hti.noDying (.inr (by rw [hp]; rfl))
    simp [stored, disposed, heldBy, hp, inPhase, hd, hsl, inCtx]
  | enterW hc hsl hp _ => simp [stored, disposed, heldBy, hp, inPhase, hsl, inCtx]
  | ran hp => simp [stored, disposed, isStored, isDisposed, heldBy, hp, inPhase]
  | toTls hp _ _ => simp [stored, disposed, heldBy, hp, inPhase, inStorage]
  | @swapAtExit r c hp hv hc =>
    have := sv c { c with atExit := [] } (.atExit c.atExit.reverse r) false hv
    rw [hp] at this
    simp only [stored, disposed, List.countP_nil]
    simp only [inPhase] at this
    omega
  | tlsSkip hp => simp [stored, disposed, heldBy, hp, inPhase, inStorage]
  | @tlsClean k q rest r info c hp _ _ =>
    simp only [stored, disposed, heldBy, hp, inPhase, inStorage, isStored, isDisposed, List.countP_cons, List.countP_nil, Option.some.injEq]
    by_cases e : q = p <;> simp [e] <;> omega
  | @tlsDrop k q rest r info hp _ _ =>
    simp only [stored, disposed, heldBy, hp, inPhase, inStorage, isStored, isDisposed, List.countP_cons, List.countP_nil, Option.some.injEq]
    by_cases e : q = p <;> simp [e] <;> omega
  | toNotify hp _ _ _ => simp [stored, disposed, heldBy, hp, inPhase, inStorage]
  | @swapTls k r c hp hv hc =>
    have := sv c { c with storage := [] } (.tls 0 c.storage r) false hv
    rw [hp] at this
    simp only [stored, disposed, List.countP_nil]
    have e : inStorage p [] = 0 := rfl
    simp only [inPhase, e] at this
    omega
  | notifyOne hp => simp [stored, disposed, isStored, isDisposed, heldBy, hp, inPhase]
  | endW hc hp =>
    have hd := hti.noDying (.inl hc)
    cases hsl : th.slot with
    | none => simp [stored, disposed, isStored, isDisposed, heldBy, hp, inPhase, inCtx, hsl]
    | some c =>
      have := hdr _ _ hp c (by unfold victim; rw [hd]; exact hsl)
      simp [stored, disposed, isStored, isDisposed, heldBy, hp, inPhase, inCtx, hsl, this, inStorage]
  | endP hc hp =>
    cases hsl : th.dying with
    | none => simp [stored, disposed, heldBy, hp, inPhase, inCtx, hsl]
    | some c =>
      have := hdr _ _ hp c (by unfold victim; rw [hsl])
      simp [stored, disposed, heldBy, hp, inPhase, inCtx, hsl, this, inStorage]
  | ubAtExit _ _ => simp at hub
  | ubTls _ _ => simp at hub
  | ubTable _ _ => simp at hub
  | @clean c q rest hp =>
    simp only [stored, disposed, heldBy, hp, isStored, isDisposed, List.countP_cons, List.countP_nil]
    by_cases e : q = p <;> simp [e] <;> omega
  | get _ _ _ => simp [stored, disposed, isStored, isDisposed]
  | reset => exact acct_reset p
  | release => exact acct_release p
  | register _ =>
    have := inCtx_ensure p th
    simp [stored, disposed, isStored, isDisposed, heldBy, inCtx, this]
  | notifyReg _ =>
    have := inCtx_ensure p th
    simp [stored, disposed, isStored, isDisposed, heldBy, inCtx, this]

theorem sum_set {α : Type} {f : α → Nat} {l : List α} {i : Nat} {a b : α} (h : l[i]? = some a) :
    ((l.set i b).map f).sum + f a = (l.map f).sum + f b := by
  induction l generalizing i with
  | nil => simp at h
  | cons x xs ih =>
    cases i with
    | zero =>
      simp only [List.getElem?_cons_zero, Option.some.injEq] at h
      subst h
      simp only [List.set_cons_zero, List.map_cons, List.sum_cons]
      omega
    | succ i =>
      simp only [List.getElem?_cons_succ] at h
      have := ih h
      simp only [List.set_cons_succ, List.map_cons, List.sum_cons]
      omega

theorem held_clear (p : Ptr) (k : Nat) (ths : List Thread) :
    ((ths.map (clearThread k)).map (heldBy p)).sum + ((ths.flatMap (takenFrom k)).countP fun x => decide (x = p)) = (ths.map (heldBy p)).sum := by
  induction ths with
  | nil => rfl
  | cons th ths ih =>
    have := heldBy_clear p th k
    simp only [List.map_cons, List.sum_cons, List.flatMap_cons, List.countP_append]
    omega

theorem held_addTodo {p : Ptr} {ths : List Thread} {t : Nat} {l : List (Nat × Ptr)} (h : t < ths.length) :
    ((addTodo ths t l).map (heldBy p)).sum = (ths.map (heldBy p)).sum + l.countP fun x => decide (x.2 = p) := by
  unfold addTodo
  induction ths generalizing t with
  | nil => simp at h
  | cons th ths ih =>
    cases t with
    | zero =>
      simp only [List.modify_zero_cons, List.map_cons, List.sum_cons, heldBy, List.countP_append]
      omega
    | succ t =>
      simp only [List.modify_succ_cons, List.map_cons, List.sum_cons]
      rw [ih (by simpa using h)]
      omega

theorem acct_step {cfg s l s' es} (hi : Inv cfg s) (hdr : ∀ (t : Nat) th, s.threads[t]? = some th → Drained th)
    (hs : step cfg s l = some (s', es)) (p : Ptr) : held p s + stored p es = held p s' + disposed p es := by
  have hub := (inv_step hi hs).2
  obtain ⟨t, op⟩ := l
  cases sstep_of_step hs with
  | localStep hth hl =>
    have h1 := acct_local (hi.thr _ _ hth) (hdr _ _ hth) hl hub p
    unfold held
    dsimp only
    rename_i th th'
    have h2 := sum_set (f := heldBy p) (b := th') hth
    omega
  | create hth hu hn =>
    obtain ⟨_, h2, h3, _⟩ := tab_newKey hi.tab hn
    unfold held
    rw [h2, h3]
    simp [stored, disposed, isStored, isDisposed]
  | @destroy th o₀ ob₀ hth hu ho₀ hl₀ =>
    have hd := deleted_of_deleteKey (t := t) hi.tab ho₀ hl₀
    generalize (deleteKey s t o₀ ob₀).1 = s₁ at *
    generalize (deleteKey s t o₀ ob₀).2 = es₁ at *
    cases hd with
    | keep => simp [stored, disposed, isStored, isDisposed, held]
    | forget =>
      have h1 := held_clear p ob₀.key s.threads
      unfold held
      dsimp only
      have h2 : stored p (.destroyed o₀ :: (s.threads.flatMap (takenFrom ob₀.key)).map (Ev.dropped t)) = 0 := by
        apply stored_zero
        intro e he
        rcases List.mem_cons.mp he with rfl | he
        · rfl
        · rw [List.mem_map] at he; obtain ⟨q, _, rfl⟩ := he; rfl
      have h3 : disposed p (.destroyed o₀ :: (s.threads.flatMap (takenFrom ob₀.key)).map (Ev.dropped t)) =
          (s.threads.flatMap (takenFrom ob₀.key)).countP fun x => decide (x = p) := by
        unfold disposed
        rw [List.countP_cons, List.countP_map]
        simp [isDisposed]
        rfl
      rw [h2, h3]
      omega
    | run =>
      have h1 := held_clear p ob₀.key s.threads
      have hlt : t < (s.threads.map (clearThread ob₀.key)).length := by
        rw [List.length_map]; exact (List.getElem?_eq_some_iff.mp hth).1
      unfold held
      dsimp only
      rw [held_addTodo hlt, List.countP_map]
      have e : ((fun x : Nat × Ptr => decide (x.2 = p)) ∘ fun p => (o₀, p)) = fun x => decide (x = p) := rfl
      rw [e]
      have e1 : stored p [.destroyed o₀] = 0 := rfl
      have e2 : disposed p [.destroyed o₀] = 0 := rfl
      rw [e1, e2]
      omega

theorem acct_exec {cfg n tr s} (h : Exec (step cfg) (init n) tr s) (p : Ptr) : stored p tr = disposed p tr + held p s := by
  induction h with
  | init =>
    have : held p (init n) = 0 := by
      unfold held init
      simp [List.map_replicate, heldBy, inCtx, inPhase]
    rw [this]; rfl
  | snoc hx hs ih =>
    have := acct_step (inv_exec hx).1 (drained_exec hx) hs p
    rw [stored_append, disposed_append]
    omega

end Verif.Tss
