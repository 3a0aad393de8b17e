import Verif.Proof.TssExit

/-! # Notifications, order, and what is left -/

namespace Verif.Tss

/-! ## notifications -/

def ctxNotify : Option Ctx → List (Nat × Nat)
  | some c => c.notify
  | none => []

/-- The notifications the thread still has to make. -/
def queueOf (th : Thread) : List (Nat × Nat) :=
  match th.ph with
  | .notify pend _ => pend ++ (if th.dying = none then [] else ctxNotify th.slot)
  | _ => ctxNotify th.dying ++ ctxNotify th.slot

def NtR (th : Thread) (a : Option Notifications) : Prop := a = some ⟨queueOf th, false⟩

theorem ctxNotify_clear (k o) : ctxNotify (Option.map (clearKey k) o) = ctxNotify o := by
  cases o with
  | none => rfl
  | some c => exact clearKey_notify k c

theorem queueOf_clear (k th) : queueOf (clearThread k th) = queueOf th := by
  unfold queueOf clearThread
  dsimp only
  rw [ctxNotify_clear, ctxNotify_clear]
  simp only [Option.map_eq_none_iff]

theorem ntNext_none {t : Nat} {q e} (h : ∀ x y, e ≠ .notifyRegistered t x ∧ e ≠ .unlocked t y ∧ e ≠ .notified t y) : ntNext t (some q) e = some q := by
  cases e with
  | notifyRegistered t' n => have := (h n 0).1; simp only [ntNext]; split <;> simp_all
  | unlocked t' m => have := (h (0, 0) m).2.1; simp only [ntNext]; split <;> simp_all
  | notified t' m => have := (h (0, 0) m).2.2; simp only [ntNext]; split <;> simp_all
  | _ => rfl

theorem nt_fold_none {t : Nat} {a} {es : List Ev} (h : ∀ e ∈ es, ∀ x y, e ≠ .notifyRegistered t x ∧ e ≠ .unlocked t y ∧ e ≠ .notified t y) :
    es.foldl (ntNext t) a = a :=
  foldl_same fun e he => by
    cases a with
    | none => rfl
    | some c => exact ntNext_none (h e he)

theorem ctxNotify_ensure (th : Thread) : ctxNotify th.slot = (ensureCtx th).notify := by
  unfold ctxNotify ensureCtx
  cases th.slot <;> rfl

theorem doReset_notify {t o ob th v} : queueOf (doReset t o ob th v).1 = queueOf th := by
  unfold doReset
  dsimp only
  split
  · rfl
  · have : ctxNotify (setSpecific th ob.key (v.map (Ptr.mk o))).slot = ctxNotify th.slot := by rw [ctxNotify_ensure th]; rfl
    unfold queueOf
    rw [this]; rfl

theorem doRelease_notify {t o ob th} : queueOf (doRelease t o ob th).1 = queueOf th := by
  unfold doRelease
  split
  · have : ctxNotify (setSpecific th ob.key none).slot = ctxNotify th.slot := by rw [ctxNotify_ensure th]; rfl
    unfold queueOf
    rw [this]; rfl
  · rfl

theorem ntR_local {cfg objs table t th th' es a} (hti : TI cfg objs table th) (h : NtR th a) (hs : LStep cfg objs table t th th' es) :
    NtR th' (es.foldl (ntNext t) a) := by
  unfold NtR at h
  subst h
  have keep : (∀ e ∈ es, ∀ x y, e ≠ .notifyRegistered t x ∧ e ≠ .unlocked t y ∧ e ≠ .notified t y) → queueOf th' = queueOf th →
      NtR th' (es.foldl (ntNext t) (some ⟨queueOf th, false⟩)) := by
    intro h1 h2
    rw [nt_fold_none h1]
    unfold NtR
    rw [h2]
  have plain : ∀ {th₁ : Thread}, (∀ p r, th.ph ≠ .notify p r) → (∀ p r, th₁.ph ≠ .notify p r) →
      ctxNotify th₁.dying ++ ctxNotify th₁.slot = ctxNotify th.dying ++ ctxNotify th.slot → queueOf th₁ = queueOf th := by
    intro th₁ h1 h2 h3
    unfold queueOf
    split
    · next hp => exact absurd hp (h2 _ _)
    · exact h3
  cases hs with
  | beginExit hp _ => exact keep (by simp) (plain (by rw [hp]; simp) (by simp) rfl)
  | tlsEnd _ hp => exact keep (by simp) (plain (by rw [hp]; simp) (by simp) rfl)
  | noCtx _ hp => exact keep (by simp) (plain (by rw [hp]; simp) (by simp) rfl)
  | exhausted _ _ _ hp => exact keep (by simp) (plain (by rw [hp]; simp) (by simp) rfl)
  | enterP hc hsl hr hp _ =>
    have hd := hti.noDying (.inr (by rw [hp]; rfl))
    exact keep (by simp) (plain (by rw [hp]; simp) (by simp) (by rw [hd, hsl]; simp [ctxNotify]))
  | enterW hc hsl hp _ => exact keep (by simp) (plain (by rw [hp]; simp) (by simp) (by rw [hsl]; simp [ctxNotify]))
  | ran hp => exact keep (by simp) (plain (by rw [hp]; simp) (by simp) rfl)
  | toTls hp _ _ => exact keep (by simp) (plain (by rw [hp]; simp) (by simp) rfl)
  | @swapAtExit r c hp hv hc =>
    refine keep (by simp) (plain (by rw [hp]; simp) (by simp) ?_)
    unfold victim at hv
    cases hd : th.dying with
    | none => rw [hd] at hv; simp [setVictim, hd, hv, ctxNotify]
    | some d => rw [hd] at hv; cases hv; simp [setVictim, hd, ctxNotify]
  | tlsSkip hp => exact keep (by simp) (plain (by rw [hp]; simp) (by simp) rfl)
  | tlsClean hp _ _ => exact keep (by simp) (plain (by rw [hp]; simp) (by simp) rfl)
  | tlsDrop hp _ _ => exact keep (by simp) (plain (by rw [hp]; simp) (by simp) rfl)
  | @toNotify k r c hp hv hc _ =>
    refine keep (by simp) ?_
    unfold victim at hv
    unfold queueOf
    rw [hp]
    dsimp only
    cases hd : th.dying with
    | none => rw [hd] at hv; simp [hv, ctxNotify]
    | some d => rw [hd] at hv; cases hv; simp [ctxNotify]
  | @swapTls k r c hp hv hc =>
    refine keep (by simp) (plain (by rw [hp]; simp) (by simp) ?_)
    unfold victim at hv
    cases hd : th.dying with
    | none => rw [hd] at hv; simp [setVictim, hd, hv, ctxNotify]
    | some d => rw [hd] at hv; cases hv; simp [setVictim, hd, ctxNotify]
  | @notifyOne n rest r hp =>
    have hq : queueOf th = n :: (rest ++ (if th.dying = none then [] else ctxNotify th.slot)) := by unfold queueOf; rw [hp]; rfl
    rw [hq]
    simp [ntNext, NtR, queueOf]
  | endW hc hp =>
    have hd := hti.noDying (.inl hc)
    refine keep (by simp) ?_
    unfold queueOf
    rw [hp]
    simp [hd, ctxNotify]
  | endP hc hp =>
    have hd : th.dying ≠ none := by
      cases cfg with
      | windows => exact absurd rfl hc
      | posixTls => have := hti.posix rfl; rw [hp] at this; cases this
      | pthreadKey rounds => exact (hti.pthread rounds rfl).mp (by rw [hp]; rfl)
    refine keep (by simp) ?_
    unfold queueOf
    rw [hp]
    simp [hd, ctxNotify]
  | ubAtExit _ _ => exact keep (by simp) rfl
  | ubTls _ _ => exact keep (by simp) rfl
  | ubTable _ _ => exact keep (by simp) rfl
  | clean _ => exact keep (by simp) rfl
  | get _ _ _ => exact keep (by simp) rfl
  | reset => exact keep (fun e he x y => by rcases reset_events he with ⟨x, rfl⟩ | rfl | ⟨p, rfl⟩ | ⟨p, rfl⟩ <;> simp) doReset_notify
  | release => exact keep (fun e he x y => by rcases release_events he with rfl | ⟨p, rfl⟩ <;> simp) doRelease_notify
  | register hu =>
    exact keep (by simp) (plain (not_notify_of_user hti hu) (fun p r hp => not_notify_of_user hti hu p r hp) (by rw [ctxNotify_ensure th]; rfl))
  | @notifyReg n hu =>
    have e1 : queueOf th = ctxNotify th.dying ++ ctxNotify th.slot := by
      unfold queueOf
      split
      · next hp => exact absurd hp (not_notify_of_user hti hu _ _)
      · rfl
    simp only [List.foldl_cons, List.foldl_nil, ntNext, if_true, NtR]
    rw [e1]
    unfold queueOf
    split
    · next hp => exact (not_notify_of_user hti hu _ _ hp).elim
    · simp [ctxNotify, ← ctxNotify_ensure]

theorem ntR_exec {cfg n tr s} (h : Exec (step cfg) (init n) tr s) (t : Nat) :
    ∀ th, s.threads[t]? = some th → notifications t tr = some ⟨queueOf th, false⟩ := by
  refine sim_exec (R := NtR) rfl (fun a e he => ?_) (fun hti h hl _ => ntR_local hti h hl) (fun k th a h => ?_) (fun th l a h => h) h
  · cases a with
    | none => rfl
    | some c => exact ntNext_none (fun x y => ⟨fun h => he (by rw [h]; rfl), fun h => he (by rw [h]; rfl), fun h => he (by rw [h]; rfl)⟩)
  · unfold NtR at *; rw [h, queueOf_clear]

/-! ## number of rounds -/

def bound (cfg : Cfg) (th : Thread) (k : Nat) : Prop :=
  match cfg, th.ph with
  | .pthreadKey _, .between r => th.slot ≠ none → r ≤ k
  | .pthreadKey _, .atExit _ r => r + b2n th.slot.isSome ≤ k
  | .pthreadKey _, .tls _ _ r => r + b2n th.slot.isSome ≤ k
  | .pthreadKey _, .notify _ r => r + b2n th.slot.isSome ≤ k
  | .pthreadKey rounds, .done => th.slot ≠ none → rounds ≤ k
  | .windows, .between r => r = 0
  | _, _ => True

structure BusyR (cfg : Cfg) (th : Thread) (a : Bool × Nat) : Prop where
  ex : th.ph ≠ .running → a.1 = true
  cnt : bound cfg th a.2

def phaseRank : Phase → Nat
  | .running => 0
  | .between 0 => 0
  | .between (_ + 1) => 3
  | .atExit _ _ => 1
  | .tls _ _ _ => 2
  | .notify _ _ => 3
  | .done => 3

theorem busyNext_other {t : Nat} {a e} (h : evOf e ≠ some t) : busyNext t a e = a := by
  cases e <;> simp_all [busyNext, evOf]

theorem busyNext_mono (t : Nat) (a e) : (a.1 = true → (busyNext t a e).1 = true) ∧ a.2 ≤ (busyNext t a e).2 := by
  cases e <;> simp only [busyNext] <;> (try split) <;> simp_all

theorem busy_fold_mono (t : Nat) (es : List Ev) (a) : (a.1 = true → (es.foldl (busyNext t) a).1 = true) ∧ a.2 ≤ (es.foldl (busyNext t) a).2 := by
  induction es generalizing a with
  | nil => exact ⟨id, Nat.le_refl _⟩
  | cons e es ih =>
    rw [List.foldl_cons]
    have h1 := busyNext_mono t a e
    have h2 := ih (busyNext t a e)
    exact ⟨fun h => h2.1 (h1.1 h), Nat.le_trans h1.2 h2.2⟩

theorem reset_busy {t o ob th v a} (h : a.1 = true) :
    a.2 + b2n (doReset t o ob th v).1.slot.isSome ≤ ((doReset t o ob th v).2.foldl (busyNext t) a).2 + b2n th.slot.isSome := by
  obtain ⟨ex, k⟩ := a
  dsimp only at h
  subst h
  cases hs : th.slot with
  | some c =>
    have h1 := (busy_fold_mono t (doReset t o ob th v).2 (true, k)).2
    have h2 := b2n_le_one (doReset t o ob th v).1.slot.isSome
    simp only [Option.isSome_some, b2n_true]
    dsimp only at h1 ⊢
    omega
  | none =>
    have hg : getSpecific th ob.key = none := by unfold getSpecific; rw [hs]
    unfold doReset
    rw [hg]
    cases v with
    | none => simp [hs]
    | some x => simp [busyNext, setSpecific]

theorem release_busy {t o ob th a} :
    a.2 + b2n (doRelease t o ob th).1.slot.isSome ≤ ((doRelease t o ob th).2.foldl (busyNext t) a).2 + b2n th.slot.isSome := by
  cases hs : th.slot with
  | some c =>
    have h1 := (busy_fold_mono t (doRelease t o ob th).2 a).2
    have h2 := b2n_le_one (doRelease t o ob th).1.slot.isSome
    simp only [Option.isSome_some, b2n_true]
    omega
  | none =>
    have hg : getSpecific th ob.key = none := by unfold getSpecific; rw [hs]
    unfold doRelease
    rw [hg]
    simp [hs]

/-- Steps within a phase, by which nothing happens or something is registered. -/
theorem bound_same {cfg th th' k k'} (h : bound cfg th k) (hp : th'.ph = th.ph) (hph : exitPhase th.ph = true ∨ th.ph = .running ∨ th'.slot = th.slot) (hk : k ≤ k')
    (hs : k + b2n th'.slot.isSome ≤ k' + b2n th.slot.isSome ∨ th.ph = .running) : bound cfg th' k' := by
  unfold bound at *
  rw [hp]
  cases cfg with
  | posixTls => trivial
  | windows => cases hph' : th.ph <;> rw [hph'] at h <;> exact h
  | pthreadKey rounds =>
    cases hph' : th.ph with
    | running => trivial
    | between r =>
      rw [hph'] at h hph
      rcases hph with e | e | e
      · cases e
      · cases e
      · intro hn; rw [e] at hn; exact Nat.le_trans (h hn) hk
    | done =>
      rw [hph'] at h hph
      rcases hph with e | e | e
      · cases e
      · cases e
      · intro hn; rw [e] at hn; exact Nat.le_trans (h hn) hk
    | atExit p r =>
      rw [hph'] at h hs
      rcases hs with e | e
      · dsimp only at h ⊢; omega
      · cases e
    | tls k p r =>
      rw [hph'] at h hs
      rcases hs with e | e
      · dsimp only at h ⊢; omega
      · cases e
    | notify p r =>
      rw [hph'] at h hs
      rcases hs with e | e
      · dsimp only at h ⊢; omega
      · cases e

theorem exitPhase_of_user {cfg objs table th} (hti : TI cfg objs table th) (hu : userCode th = true) : exitPhase th.ph = true ∨ th.ph = .running := by
  unfold userCode at hu
  rw [Bool.or_eq_true, decide_eq_true_eq] at hu
  rcases hu with hu | hu
  · exact .inr hu
  · have := hti.cb hu
    left
    cases hp : th.ph with
    | atExit => rfl
    | tls => rfl
    | _ => rw [hp] at this; cases this

theorem busyR_local {cfg objs table t th th' es a} (hti : TI cfg objs table th) (h : BusyR cfg th a) (hs : LStep cfg objs table t th th' es) :
    BusyR cfg th' (es.foldl (busyNext t) a) := by
  have mono := busy_fold_mono t es a
  -- the phase advances within a round
  have adv : ∀ {th₁ : Thread}, th.ph ≠ .running → bound cfg th₁ a.2 → BusyR cfg th₁ a := fun h1 h2 => ⟨fun _ => h.ex h1, h2⟩
  have hb := h.cnt
  cases hs with
  | beginExit hp _ =>
    refine ⟨fun _ => by simp [busyNext], ?_⟩
    unfold bound
    cases cfg <;> simp
  | tlsEnd hc hp => subst hc; exact adv (by rw [hp]; simp) trivial
  | @noCtx r hsl hp =>
    refine adv (by rw [hp]; simp) ?_
    unfold bound
    cases cfg with
    | pthreadKey rounds => dsimp only; intro hn; exact absurd hsl hn
    | _ => trivial
  | @exhausted r rounds c hc hsl hr hp =>
    subst hc
    refine adv (by rw [hp]; simp) ?_
    unfold bound at *
    rw [hp] at hb
    dsimp only at *
    intro hn
    exact Nat.le_trans hr (hb hn)
  | @enterP r rounds c hc hsl hr hp _ =>
    subst hc
    refine adv (by rw [hp]; simp) ?_
    unfold bound at *
    rw [hp] at hb
    dsimp only at *
    have := hb (by rw [hsl]; simp)
    simpa using this
  | enterW hc hsl hp _ => subst hc; exact adv (by rw [hp]; simp) trivial
  | ran hp =>
    refine adv (by rw [hp]; simp) ?_
    unfold bound at *; rw [hp] at hb
    cases cfg <;> exact hb
  | toTls hp _ _ =>
    refine adv (by rw [hp]; simp) ?_
    unfold bound at *; rw [hp] at hb
    cases cfg <;> exact hb
  | @swapAtExit r c hp hv hc =>
    refine adv (by rw [hp]; simp) ?_
    unfold bound at *; rw [hp] at hb
    cases cfg with
    | pthreadKey rounds =>
      have hd : th.dying ≠ none := (hti.pthread rounds rfl).mp (by rw [hp]; rfl)
      dsimp only at hb ⊢
      cases hd' : th.dying with
      | none => exact absurd hd' hd
      | some d => simpa [setVictim, hd'] using hb
    | _ => trivial
  | tlsSkip hp =>
    refine adv (by rw [hp]; simp) ?_
    unfold bound at *; rw [hp] at hb
    cases cfg <;> exact hb
  | tlsClean hp _ _ =>
    refine adv (by rw [hp]; simp) ?_
    unfold bound at *; rw [hp] at hb
    cases cfg <;> exact hb
  | tlsDrop hp _ _ =>
    refine adv (by rw [hp]; simp) ?_
    unfold bound at *; rw [hp] at hb
    cases cfg <;> exact hb
  | toNotify hp _ _ _ =>
    refine adv (by rw [hp]; simp) ?_
    unfold bound at *; rw [hp] at hb
    cases cfg <;> exact hb
  | @swapTls k r c hp hv hc =>
    refine adv (by rw [hp]; simp) ?_
    unfold bound at *; rw [hp] at hb
    cases cfg with
    | pthreadKey rounds =>
      have hd : th.dying ≠ none := (hti.pthread rounds rfl).mp (by rw [hp]; rfl)
      dsimp only at hb ⊢
      cases hd' : th.dying with
      | none => exact absurd hd' hd
      | some d => simpa [setVictim, hd'] using hb
    | _ => trivial
  | notifyOne hp =>
    refine adv (by rw [hp]; simp) ?_
    unfold bound at *; rw [hp] at hb
    cases cfg <;> exact hb
  | endW hc hp => subst hc; exact adv (by rw [hp]; simp) trivial
  | @endP r hc hp =>
    refine adv (by rw [hp]; simp) ?_
    unfold bound at *; rw [hp] at hb
    cases cfg with
    | pthreadKey rounds =>
      dsimp only at hb ⊢
      intro hn
      have : th.slot.isSome = true := by cases hx : th.slot <;> simp_all
      rw [this] at hb
      simpa using hb
    | windows => exact absurd rfl hc
    | posixTls => trivial
  | ubAtExit _ _ => exact h
  | ubTls _ _ => exact h
  | ubTable _ _ => exact h
  | clean _ => exact ⟨h.ex, hb⟩
  | get _ _ _ => exact h
  | @reset o ob v hu ho hl =>
    have hx := exitPhase_of_user hti hu
    have hph : (doReset t o ob th v).1.ph = th.ph := doReset_ph
    refine ⟨fun hr => mono.1 (h.ex (by rwa [hph] at hr)), bound_same hb hph (hx.elim .inl (.inr ∘ .inl)) mono.2 ?_⟩
    rcases hx with hx | hx
    · exact .inl (reset_busy (h.ex (fun e => by rw [e] at hx; cases hx)))
    · exact .inr hx
  | @release o ob hu ho hl =>
    have hx := exitPhase_of_user hti hu
    have hph : (doRelease t o ob th).1.ph = th.ph := doRelease_ph
    exact ⟨fun hr => mono.1 (h.ex (by rwa [hph] at hr)), bound_same hb hph (hx.elim .inl (.inr ∘ .inl)) mono.2 (.inl release_busy)⟩
  | @register id hu =>
    have hx := exitPhase_of_user hti hu
    refine ⟨fun hr => mono.1 (h.ex hr), bound_same hb rfl (hx.elim .inl (.inr ∘ .inl)) mono.2 ?_⟩
    rcases hx with hx | hx
    · left
      have := h.ex (fun e => by rw [e] at hx; cases hx)
      simp [busyNext, this]
    · exact .inr hx
  | @notifyReg n hu =>
    have hx := exitPhase_of_user hti hu
    refine ⟨fun hr => mono.1 (h.ex hr), bound_same hb rfl (hx.elim .inl (.inr ∘ .inl)) mono.2 ?_⟩
    rcases hx with hx | hx
    · left
      have := h.ex (fun e => by rw [e] at hx; cases hx)
      simp [busyNext, this]
    · exact .inr hx

theorem busyR_clear {cfg k th a} (h : BusyR cfg th a) : BusyR cfg (clearThread k th) a := by
  refine ⟨h.ex, ?_⟩
  have := h.cnt
  have e1 : (clearThread k th).slot.isSome = th.slot.isSome := by simp [clearThread]
  have e2 : (clearThread k th).slot ≠ none ↔ th.slot ≠ none := by simp [clearThread]
  unfold bound at *
  rw [e1, clearThread_ph]
  simp only [e2]
  exact this

theorem busyR_exec {cfg n tr s} (h : Exec (step cfg) (init n) tr s) (t : Nat) :
    ∀ th, s.threads[t]? = some th → BusyR cfg th (tr.foldl (busyNext t) (false, 0)) :=
  sim_exec (R := BusyR cfg) ⟨fun h => absurd rfl h, by unfold bound start; cases cfg <;> trivial⟩ (fun _ _ he => busyNext_other he)
    (fun hti h hl _ => busyR_local hti h hl) (fun _ _ _ h => busyR_clear h) (fun _ _ _ h => ⟨h.ex, h.cnt⟩) h

end Verif.Tss
