import Verif.Proof.TssNotify

/-! # Order of callbacks, cleanups and notifications; callbacks registered late -/

namespace Verif.Tss

theorem foldl_prod {A B : Type} (f : A → Ev → A) (g : B → Ev → B) (tr : List Ev) (a : A) (b : B) :
    tr.foldl (fun x e => (f x.1 e, g x.2 e)) (a, b) = (tr.foldl f a, tr.foldl g b) := by
  induction tr generalizing a b with
  | nil => rfl
  | cons e tr ih => exact ih _ _

/-! ## order -/

def rkNext (t : Nat) (l : List Nat) (e : Ev) : List Nat := l ++ (rank t e).toList

theorem rk_fold (t : Nat) (tr : List Ev) (l) : tr.foldl (rkNext t) l = l ++ tr.filterMap (rank t) := by
  induction tr generalizing l with
  | nil => simp
  | cons e tr ih =>
    rw [List.foldl_cons, ih]
    unfold rkNext
    cases h : rank t e with
    | none => simp [h]
    | some x => simp [h]

theorem rank_other {t : Nat} {e} (h : evOf e ≠ some t) : rank t e = none := by
  cases e with
  | cleaned t' w c p => cases w <;> simp_all [rank, evOf]
  | _ => simp_all [rank, evOf]

structure OrdR (cfg : Cfg) (th : Thread) (a : (Bool × Nat) × List Nat) : Prop where
  busy : BusyR cfg th a.1
  ord : cfg = .windows ∨ a.1.2 = 0 → a.2.Pairwise (· ≤ ·) ∧ ∀ x ∈ a.2, x ≤ phaseRank th.ph

/-- Ranks of events are those of the phase; phases advance unless something has been registered. -/
theorem rank_local {cfg objs table t th th' es k} (hs : LStep cfg objs table t th th' es) (hb : bound cfg th k) (hk : cfg = .windows ∨ k = 0) :
    phaseRank th.ph ≤ phaseRank th'.ph ∧ ∀ x ∈ es.filterMap (rank t), x = phaseRank th'.ph := by
  cases hs with
  | beginExit hp _ => rw [hp]; simp [phaseRank, rank]
  | @tlsEnd r hc hp => rw [hp]; cases r <;> simp [phaseRank, rank]
  | @noCtx r hsl hp => rw [hp]; cases r <;> simp [phaseRank, rank]
  | @exhausted r rounds c hc hsl hr hp => rw [hp]; cases r <;> simp [phaseRank, rank]
  | @enterP r rounds c hc hsl hr hp _ =>
    have : r = 0 := by
      subst hc
      unfold bound at hb
      rw [hp] at hb
      have := hb (by rw [hsl]; simp)
      rcases hk with hk | hk
      · cases hk
      · omega
    rw [hp, this]; simp [phaseRank]
  | @enterW r c hc hsl hp _ =>
    have : r = 0 := by
      subst hc
      unfold bound at hb
      rw [hp] at hb
      exact hb
    rw [hp, this]; simp [phaseRank]
  | ran hp => rw [hp]; simp [phaseRank, rank]
  | toTls hp _ _ => rw [hp]; simp [phaseRank]
  | swapAtExit hp hv hc => rw [hp]; simp [phaseRank]
  | tlsSkip hp => rw [hp]; simp [phaseRank]
  | tlsClean hp _ _ => rw [hp]; simp [phaseRank, rank]
  | tlsDrop hp _ _ => rw [hp]; simp [phaseRank, rank]
  | toNotify hp _ _ _ => rw [hp]; simp [phaseRank]
  | swapTls hp hv hc => rw [hp]; simp [phaseRank]
  | notifyOne hp => rw [hp]; simp [phaseRank, rank]
  | endW hc hp => rw [hp]; simp [phaseRank, rank]
  | endP hc hp => rw [hp]; simp [phaseRank]
  | ubAtExit _ _ => simp [rank]
  | ubTls _ _ => simp [rank]
  | ubTable _ _ => simp [rank]
  | clean _ => simp [rank]
  | get _ _ _ => simp [rank]
  | reset =>
    rw [doReset_ph]
    refine ⟨Nat.le_refl _, fun x hx => ?_⟩
    rw [List.mem_filterMap] at hx
    obtain ⟨e, he, hr⟩ := hx
    rcases reset_events he with ⟨x, rfl⟩ | rfl | ⟨p, rfl⟩ | ⟨p, rfl⟩ <;> simp [rank] at hr
  | release =>
    rw [doRelease_ph]
    refine ⟨Nat.le_refl _, fun x hx => ?_⟩
    rw [List.mem_filterMap] at hx
    obtain ⟨e, he, hr⟩ := hx
    rcases release_events he with rfl | ⟨p, rfl⟩ <;> simp [rank] at hr
  | register _ => simp [rank]
  | notifyReg _ => simp [rank]

theorem ordR_local {cfg objs table t th th' es a} (hti : TI cfg objs table th) (h : OrdR cfg th a) (hs : LStep cfg objs table t th th' es) :
    OrdR cfg th' (es.foldl (fun x e => (busyNext t x.1 e, rkNext t x.2 e)) a) := by
  obtain ⟨a, l⟩ := a
  rw [foldl_prod]
  refine ⟨busyR_local hti h.busy hs, fun hk => ?_⟩
  dsimp only at hk ⊢
  have mono := (busy_fold_mono t es a).2
  have hk' : cfg = .windows ∨ a.2 = 0 := hk.imp id (fun e => by omega)
  obtain ⟨h1, h2⟩ := h.ord hk'
  obtain ⟨h3, h4⟩ := rank_local hs h.busy.cnt hk'
  dsimp only at h1 h2
  rw [rk_fold]
  refine ⟨List.pairwise_append.mpr ⟨h1, ?_, fun x hx y hy => ?_⟩, fun x hx => ?_⟩
  · exact List.Pairwise.imp_of_mem (fun {x y} hx hy _ => by rw [h4 x hx, h4 y hy]; exact Nat.le_refl _) (List.pairwise_of_forall (R := fun _ _ => True) (fun _ _ => trivial))
  · rw [h4 y hy]; exact Nat.le_trans (h2 x hx) h3
  · rcases List.mem_append.mp hx with hx | hx
    · exact Nat.le_trans (h2 x hx) h3
    · rw [h4 x hx]; exact Nat.le_refl _

theorem ordR_exec {cfg n tr s} (h : Exec (step cfg) (init n) tr s) (t : Nat) :
    ∀ th, s.threads[t]? = some th → OrdR cfg th (tr.foldl (busyNext t) (false, 0), tr.filterMap (rank t)) := by
  intro th ht
  have := sim_exec (R := OrdR cfg) (f := fun x e => (busyNext t x.1 e, rkNext t x.2 e)) (a₀ := ((false, 0), []))
    ⟨⟨fun h => absurd rfl h, by unfold bound start; cases cfg <;> trivial⟩, fun _ => ⟨List.Pairwise.nil, by simp⟩⟩
    (fun a e he => by unfold rkNext; rw [busyNext_other he, rank_other he]; simp) (fun hti h hl _ => ordR_local hti h hl)
    (fun _ _ _ h => ⟨busyR_clear h.busy, h.ord⟩) (fun _ _ _ h => ⟨⟨h.busy.ex, h.busy.cnt⟩, h.ord⟩) h th ht
  rw [foldl_prod, rk_fold] at this
  exact this

/-! ## callbacks registered late -/

def early : Phase → Bool
  | .running | .between _ | .atExit _ _ => true
  | _ => false

structure LateR (th : Thread) (a : (Bool × Bool) × Option Callbacks) : Prop where
  cb : CbR .windows th a.2
  early : early th.ph = true → a.1.1 = false
  seen : ∀ k p r, th.ph = .tls k p r → th.cb = true → a.1.1 = true
  left : a.1.2 = false → Tss.early th.ph = false → a.2 = some ⟨[], []⟩

theorem lateNext_other {t : Nat} {a e} (h : evOf e ≠ some t) : lateNext t a e = a := by
  cases e with
  | cleaned t' w c p => cases w <;> simp_all [lateNext, evOf]
  | _ => simp_all [lateNext, evOf]

theorem late_fold_none {t : Nat} {a} {es : List Ev} (h : ∀ e ∈ es, (∀ c p, e ≠ .cleaned t .exit c p) ∧ ∀ id, e ≠ .registered t id) :
    es.foldl (lateNext t) a = a := by
  refine foldl_same fun e he => ?_
  obtain ⟨h1, h2⟩ := h e he
  cases e with
  | cleaned t' w c p =>
    cases w with
    | exit => have := h1 c p; simp only [lateNext]; split <;> simp_all
    | _ => rfl
  | registered t' id => have := h2 id; simp only [lateNext]; split <;> simp_all
  | _ => rfl

theorem lateR_local {objs table t th th' es a} (hti : TI .windows objs table th) (h : LateR th a) (hs : LStep .windows objs table t th th' es) :
    LateR th' (es.foldl (fun x e => (lateNext t x.1 e, cbNext t x.2 e)) a) := by
  obtain ⟨a, c⟩ := a
  rw [foldl_prod]
  obtain ⟨h1, h2, h3, h4⟩ := h
  dsimp only at h1 h2 h3 h4
  have hcb := cbR_local hti h1 hs
  suffices hh : (Tss.early th'.ph = true → (es.foldl (lateNext t) a).1 = false) ∧
      (∀ k p r, th'.ph = .tls k p r → th'.cb = true → (es.foldl (lateNext t) a).1 = true) ∧
      ((es.foldl (lateNext t) a).2 = false → Tss.early th'.ph = false → es.foldl (cbNext t) c = some ⟨[], []⟩) from
    ⟨hcb, hh.1, hh.2.1, hh.2.2⟩
  -- callbacks are neither registered nor run
  have plain : ∀ {es : List Ev}, (∀ e ∈ es, (∀ c p, e ≠ .cleaned t .exit c p) ∧ (∀ id, e ≠ .registered t id) ∧ ∀ id, e ≠ .ran t id) →
      es.foldl (lateNext t) a = a ∧ es.foldl (cbNext t) c = c := fun h =>
    ⟨late_fold_none (fun e he => ⟨(h e he).1, (h e he).2.1⟩), cb_fold_none (fun e he id => ⟨(h e he).2.1 id, (h e he).2.2 id⟩)⟩
  have hd := hti.noDying (.inl rfl)
  cases hs with
  | beginExit hp _ => rw [(plain (by simp)).1]; exact ⟨fun _ => h2 (by rw [hp]; rfl), by simp, fun _ h => by cases h⟩
  | tlsEnd e => cases e
  | exhausted e => cases e
  | enterP e => cases e
  | endP e => exact absurd rfl e
  | noCtx hsl hp =>
    rw [(plain (by simp)).1, (plain (by simp)).2]
    refine ⟨fun h => (by cases h), by simp, fun hl _ => ?_⟩
    cases c with
    | none => cases h1
    | some c =>
      obtain ⟨x, y⟩ := cbR_normal h1 (by rw [hp]; simp) (by rw [hp]; simp)
      obtain ⟨b, l⟩ := c
      dsimp only at x y
      subst x
      rw [y]; simp [slotAtExit, hsl]
  | enterW hc hsl hp _ => rw [(plain (by simp)).1]; exact ⟨fun _ => h2 (by rw [hp]; rfl), by simp, fun _ h => by cases h⟩
  | ran hp => exact ⟨fun _ => h2 (by rw [hp]; rfl), by simp, fun _ h => by cases h⟩
  | @toTls r c' hp hv hc =>
    rw [(plain (by simp)).1, (plain (by simp)).2]
    refine ⟨fun h => (by cases h), by simp, fun hl _ => ?_⟩
    cases c with
    | none => cases h1
    | some c =>
      obtain ⟨x, y⟩ := cbR_normal h1 (by rw [hp]; intro p r h; cases h; rfl) (by rw [hp]; simp)
      obtain ⟨b, l⟩ := c
      dsimp only at x y
      subst x
      have hsl : th.slot = some c' := by unfold victim at hv; rw [hd] at hv; exact hv
      rw [y]; simp [slotAtExit, hsl, hc]
  | swapAtExit hp hv hc => rw [(plain (by simp)).1]; exact ⟨fun _ => h2 (by rw [hp]; rfl), by simp, fun _ h => by cases h⟩
  | tlsSkip hp => rw [(plain (by simp)).1, (plain (by simp)).2]; exact ⟨fun h => (by cases h), by simp, fun hl _ => h4 hl (by rw [hp]; rfl)⟩
  | @tlsClean k q rest r info c₀ hp _ _ =>
    have e1 : [Ev.cleaned t .exit c₀ q].foldl (lateNext t) a = (true, a.2) := by simp [lateNext]
    have e2 : [Ev.cleaned t .exit c₀ q].foldl (cbNext t) c = c := by cases c <;> rfl
    rw [e1, e2]
    exact ⟨fun h => (by cases h), fun _ _ _ _ _ => rfl, fun hl _ => h4 hl (by rw [hp]; rfl)⟩
  | tlsDrop hp _ _ => rw [(plain (by simp)).1, (plain (by simp)).2]; exact ⟨fun h => (by cases h), by simp, fun hl _ => h4 hl (by rw [hp]; rfl)⟩
  | toNotify hp _ _ _ => rw [(plain (by simp)).1, (plain (by simp)).2]; exact ⟨fun h => (by cases h), by simp, fun hl _ => h4 hl (by rw [hp]; rfl)⟩
  | swapTls hp hv hc => rw [(plain (by simp)).1, (plain (by simp)).2]; exact ⟨fun h => (by cases h), by simp, fun hl _ => h4 hl (by rw [hp]; rfl)⟩
  | notifyOne hp => rw [(plain (by simp)).1, (plain (by simp)).2]; exact ⟨fun h => (by cases h), by simp, fun hl _ => h4 hl (by rw [hp]; rfl)⟩
  | endW hc hp => rw [(plain (by simp)).1, (plain (by simp)).2]; exact ⟨fun h => (by cases h), by simp, fun hl _ => h4 hl (by rw [hp]; rfl)⟩
  | ubAtExit _ _ => rw [(plain (by simp)).1, (plain (by simp)).2]; exact ⟨h2, h3, h4⟩
  | ubTls _ _ => rw [(plain (by simp)).1, (plain (by simp)).2]; exact ⟨h2, h3, h4⟩
  | ubTable _ _ => rw [(plain (by simp)).1, (plain (by simp)).2]; exact ⟨h2, h3, h4⟩
  | clean _ => rw [(plain (by simp)).1, (plain (by simp)).2]; exact ⟨h2, h3, h4⟩
  | get _ _ _ => rw [(plain (by simp)).1, (plain (by simp)).2]; exact ⟨h2, h3, h4⟩
  | @reset o ob v =>
    have := plain (es := (doReset t o ob th v).2) (fun e he => by rcases reset_events he with ⟨x, rfl⟩ | rfl | ⟨p, rfl⟩ | ⟨p, rfl⟩ <;> simp)
    rw [this.1, this.2, doReset_ph, doReset_cb]
    exact ⟨h2, h3, h4⟩
  | @release o ob =>
    have := plain (es := (doRelease t o ob th).2) (fun e he => by rcases release_events he with rfl | ⟨p, rfl⟩ <;> simp)
    rw [this.1, this.2, doRelease_ph, doRelease_cb]
    exact ⟨h2, h3, h4⟩
  | @register id hu =>
    have e1 : [Ev.registered t id].foldl (lateNext t) a = (a.1, a.2 || a.1) := by simp [lateNext]
    rw [e1]
    refine ⟨h2, h3, fun hl hx => ?_⟩
    exfalso
    have hcb : th.cb = true := by
      unfold userCode at hu
      rw [Bool.or_eq_true, decide_eq_true_eq] at hu
      rcases hu with hu | hu
      · have hx' : Tss.early th.ph = false := hx
        rw [hu] at hx'; cases hx'
      · exact hu
    have hp := hti.cb hcb
    cases hph : th.ph with
    | tls k p r =>
      have := h3 k p r hph hcb
      rw [this] at hl
      simp at hl
    | atExit p r =>
      have hx' : Tss.early th.ph = false := hx
      rw [hph] at hx'; cases hx'
    | _ => rw [hph] at hp; cases hp
  | notifyReg hu => rw [(plain (by simp)).1, (plain (by simp)).2]; exact ⟨h2, h3, h4⟩

theorem lateR_exec {n tr s} (h : Exec (step .windows) (init n) tr s) (t : Nat) :
    ∀ th, s.threads[t]? = some th → LateR th (tr.foldl (lateNext t) (false, false), callbacks t tr) := by
  intro th ht
  have := sim_exec (R := LateR) (f := fun x e => (lateNext t x.1 e, cbNext t x.2 e)) (a₀ := ((false, false), some ⟨[], []⟩))
    ⟨.normal rfl rfl, fun _ => rfl, by simp [start], fun _ _ => rfl⟩
    (fun a e he => by
      obtain ⟨a, c⟩ := a
      dsimp only
      rw [lateNext_other he]
      cases c with
      | none => rfl
      | some c => rw [cbNext_none (fun id => ⟨fun h => he (by rw [h]; rfl), fun h => he (by rw [h]; rfl)⟩)])
    (fun hti h hl _ => lateR_local hti h hl)
    (fun k th _ h => ⟨cbR_slot h.cb rfl (slotAtExit_clear k th) rfl, h.early, h.seen, h.left⟩)
    (fun _ _ _ h => ⟨cbR_slot h.cb rfl rfl rfl, h.early, h.seen, h.left⟩) h th ht
  rw [foldl_prod] at this
  exact this

end Verif.Tss
