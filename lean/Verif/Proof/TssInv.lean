import Verif.Proof.TssStep

/-! # Invariants of the TSS model: tables and contexts -/

namespace Verif.Tss

/-- The object still has values: it lives, or its values outlive it. -/
def Obj.holding (ob : Obj) : Prop := ob.live = true ∨ ob.atDelete = false

structure Tab (objs : List Obj) (table : List Info) (fr : List Nat) : Prop where
  key : ∀ (o : Nat) ob, objs[o]? = some ob → ob.holding → table[ob.key]? = some ⟨if ob.cleanup then some o else none, ob.atDelete⟩
  uniq : ∀ (o o' : Nat) ob ob', objs[o]? = some ob → objs[o']? = some ob' → ob.holding → ob'.holding → ob.key = ob'.key → o = o'
  freed : ∀ k ∈ fr, k < table.length ∧ ∀ (o : Nat) ob, objs[o]? = some ob → ob.holding → ob.key ≠ k
  nodup : fr.Nodup

/-- The pointer, stored under key `k`, belongs to an object having that key. -/
def Owner (objs : List Obj) (k : Nat) (p : Ptr) : Prop := ∃ ob, objs[p.obj]? = some ob ∧ ob.holding ∧ ob.key = k

structure CtxOk (objs : List Obj) (table : List Info) (c : Ctx) : Prop where
  len : c.storage.length ≤ table.length
  owner : ∀ (k : Nat) p, c.storage[k]? = some (some p) → Owner objs k p

def exitPhase : Phase → Bool
  | .atExit _ _ | .tls _ _ _ | .notify _ _ => true
  | _ => false

def cbPhase : Phase → Bool
  | .atExit _ _ | .tls _ _ _ => true
  | _ => false

structure TI (cfg : Cfg) (objs : List Obj) (table : List Info) (th : Thread) : Prop where
  slot : ∀ c, th.slot = some c → CtxOk objs table c
  dying : ∀ c, th.dying = some c → CtxOk objs table c
  pend : ∀ k pend r, th.ph = .tls k pend r → k + pend.length ≤ table.length
  todo : ∀ c p, (c, p) ∈ th.todo → c = p.obj ∧ ∃ ob, objs[p.obj]? = some ob ∧ ob.cleanup = true
  posix : cfg = .posixTls → exitPhase th.ph = false
  pthread : ∀ rounds, cfg = .pthreadKey rounds → (exitPhase th.ph = true ↔ th.dying ≠ none)
  win : cfg = .windows → cbPhase th.ph = true → th.slot ≠ none
  noDying : cfg = .windows ∨ exitPhase th.ph = false → th.dying = none
  dyingEmpty : ∀ c, th.dying = some c → c.atExit = []
  cb : th.cb = true → cbPhase th.ph = true
  idle : th.ph ≠ .running → cbPhase th.ph = false → th.todo = []

/-! ## storage -/

theorem getValue_setValue (c : Ctx) (k k' : Nat) (x : Option Ptr) : getValue (setValue c k x) k' = if k' = k then x else getValue c k' := by
  unfold getValue setValue
  dsimp only
  by_cases h : c.storage.length ≤ k
  · rw [if_pos h]
    rw [List.getElem?_set]
    by_cases hk : k' = k
    · subst hk
      rw [if_pos rfl, if_pos rfl, if_pos (by simp; omega)]
    · rw [if_neg (Ne.symm hk), if_neg hk]
      rw [List.getElem?_append]
      by_cases hlt : k' < c.storage.length
      · rw [if_pos hlt]
      · rw [if_neg hlt, List.getElem?_eq_none (l := c.storage) (by omega), List.getElem?_replicate]
        by_cases h2 : k' - c.storage.length < k + 1 - c.storage.length
        · rw [if_pos h2]
        · rw [if_neg h2]
  · rw [if_neg h, List.getElem?_set]
    by_cases hk : k' = k
    · subst hk
      rw [if_pos rfl, if_pos rfl, if_pos (by omega)]
    · rw [if_neg (Ne.symm hk), if_neg hk]

theorem getValue_iff {c : Ctx} {k : Nat} {p : Ptr} : getValue c k = some p ↔ c.storage[k]? = some (some p) := by
  unfold getValue
  split
  · next x h => rw [h]; simp
  · next h => rw [h]; simp

theorem setValue_len {c : Ctx} {k : Nat} {x : Option Ptr} {n : Nat} (h : c.storage.length ≤ n) (hk : k < n) :
    (setValue c k x).storage.length ≤ n := by
  unfold setValue
  dsimp only
  split <;> simp <;> omega

theorem ctxOk_empty {objs table} : CtxOk objs table Ctx.empty := ⟨by simp [Ctx.empty], by simp [Ctx.empty]⟩

theorem ctxOk_set {objs table c k x} (h : CtxOk objs table c) (hk : k < table.length) (hx : ∀ p, x = some p → Owner objs k p) :
    CtxOk objs table (setValue c k x) := by
  refine ⟨setValue_len h.len hk, fun k' p hp => ?_⟩
  rw [← getValue_iff, getValue_setValue] at hp
  split at hp
  · next e => subst e; exact hx p hp
  · exact h.owner k' p (getValue_iff.mp hp)

theorem ctxOk_ensure {cfg objs table th} (h : TI cfg objs table th) : CtxOk objs table (ensureCtx th) := by
  unfold ensureCtx
  split
  · exact ctxOk_empty
  · next c hc => exact h.slot c hc

theorem Tab.key_lt {objs table freed} (h : Tab objs table freed) {o : Nat} {ob} (ho : objs[o]? = some ob) (hh : ob.holding) :
    ob.key < table.length := by
  have := h.key o ob ho hh
  exact (List.getElem?_eq_some_iff.mp this).1

/-- Changing the context in the slot in user code. -/
theorem ti_slot {cfg objs table th c} (h : TI cfg objs table th) (hc : CtxOk objs table c) : TI cfg objs table { th with slot := some c } :=
  { slot := fun c' hc' => by cases hc'; exact hc
    dying := h.dying, pend := h.pend, todo := h.todo, posix := h.posix, pthread := h.pthread,
    win := fun _ _ => by simp
    noDying := h.noDying, dyingEmpty := h.dyingEmpty, cb := h.cb, idle := h.idle }

theorem ctxOk_sub {objs table} {c c' : Ctx} (h : CtxOk objs table c) (hs : c'.storage = c.storage ∨ c'.storage = []) : CtxOk objs table c' := by
  rcases hs with hs | hs
  · exact ⟨by rw [hs]; exact h.len, by rw [hs]; exact h.owner⟩
  · exact ⟨by rw [hs]; simp, by rw [hs]; simp⟩

theorem victim_ok {cfg objs table th c} (h : TI cfg objs table th) (hv : victim th = some c) : CtxOk objs table c := by
  unfold victim at hv
  split at hv
  · next c' hd => cases hv; exact h.dying _ hd
  · exact h.slot _ hv

theorem ti_local {cfg objs table freed t th th' es} (htab : Tab objs table freed) (h : TI cfg objs table th)
    (hs : LStep cfg objs table t th th' es) : TI cfg objs table th' ∧ Ev.ub ∉ es := by
  have victim_ne : ∀ {ph}, th.ph = ph → cbPhase ph = true → victim th ≠ none := by
    intro ph hph hcb hv
    subst hph
    have hex : exitPhase th.ph = true := by cases hp : th.ph <;> simp_all [cbPhase, exitPhase]
    unfold victim at hv
    split at hv
    · cases hv
    · next hd =>
      cases cfg with
      | pthreadKey n => exact (h.pthread n rfl).mp hex hd
      | posixTls => rw [h.posix rfl] at hex; cases hex
      | windows => exact h.win rfl hcb hv
  have user_ok : userCode th = true → th.ph = .running ∨ cbPhase th.ph = true := by
    intro hu
    unfold userCode at hu
    rw [Bool.or_eq_true] at hu
    rcases hu with hu | hu
    · exact .inl (by simpa using hu)
    · exact .inr (h.cb hu)
  cases hs with
  | beginExit hp ht =>
    refine ⟨⟨h.slot, h.dying, by simp, h.todo, fun _ => rfl, fun r hr => ?_, by simp [cbPhase], fun _ => h.noDying (.inr (by rw [hp]; rfl)),
      h.dyingEmpty, fun hc => ?_, fun _ _ => ht⟩, by simp⟩
    · have := h.pthread r hr; rw [hp] at this; simpa [exitPhase] using this
    · have := h.cb hc; rw [hp] at this; cases this
  | tlsEnd hc hp =>
    refine ⟨⟨h.slot, h.dying, by simp, h.todo, fun _ => rfl, fun r hr => ?_, by simp [cbPhase], fun _ => h.noDying (.inr (by rw [hp]; rfl)),
      h.dyingEmpty, fun hc => ?_, fun _ _ => h.idle (by rw [hp]; simp) (by rw [hp]; rfl)⟩, by simp⟩
    · have := h.pthread r hr; rw [hp] at this; simpa [exitPhase] using this
    · have := h.cb hc; rw [hp] at this; cases this
  | noCtx hc hp =>
    refine ⟨⟨h.slot, h.dying, by simp, h.todo, fun _ => rfl, fun r hr => ?_, by simp [cbPhase], fun _ => h.noDying (.inr (by rw [hp]; rfl)),
      h.dyingEmpty, fun hc => ?_, fun _ _ => h.idle (by rw [hp]; simp) (by rw [hp]; rfl)⟩, by simp⟩
    · have := h.pthread r hr; rw [hp] at this; simpa [exitPhase] using this
    · have := h.cb hc; rw [hp] at this; cases this
  | exhausted hc _ _ hp =>
    refine ⟨⟨h.slot, h.dying, by simp, h.todo, fun _ => rfl, fun r hr => ?_, by simp [cbPhase], fun _ => h.noDying (.inr (by rw [hp]; rfl)),
      h.dyingEmpty, fun hc => ?_, fun _ _ => h.idle (by rw [hp]; simp) (by rw [hp]; rfl)⟩, by simp⟩
    · have := h.pthread r hr; rw [hp] at this; simpa [exitPhase] using this
    · have := h.cb hc; rw [hp] at this; cases this
  | enterP hc hsl _ hp ht =>
    refine ⟨⟨by simp, fun c hcc => ?_, by simp, h.todo, ?_, fun r hr => by simp [exitPhase], ?_, ?_, fun c hcc => by cases hcc; rfl, ?_,
      fun _ _ => ht⟩, by simp⟩
    · cases hcc; exact ctxOk_sub (h.slot _ hsl) (.inl rfl)
    · intro e; rw [hc] at e; cases e
    · intro e; rw [hc] at e; cases e
    · rintro (e | e)
      · rw [hc] at e; cases e
      · simp [exitPhase] at e
    · intro hcb; rfl
  | enterW hc hsl hp ht =>
    refine ⟨⟨fun c hcc => ?_, h.dying, by simp, h.todo, ?_, ?_, fun _ _ => by simp, fun _ => h.noDying (.inl hc), h.dyingEmpty, fun _ => rfl,
      fun _ _ => ht⟩, by simp⟩
    · cases hcc; exact ctxOk_sub (h.slot _ hsl) (.inl rfl)
    · intro e; rw [hc] at e; cases e
    · intro r e; rw [hc] at e; cases e
  | ran hp =>
    have hx : exitPhase th.ph = true := by rw [hp]; rfl
    have hcb : cbPhase th.ph = true := by rw [hp]; rfl
    refine ⟨⟨h.slot, h.dying, by simp, h.todo, fun e => ?_, fun r hr => ?_, fun e _ => h.win e hcb, ?_, h.dyingEmpty, fun _ => rfl,
      fun _ e => by simp [cbPhase] at e⟩, by simp⟩
    · rw [h.posix e] at hx; cases hx
    · have := h.pthread r hr; rw [hp] at this; simpa [exitPhase] using this
    · rintro (e | e)
      · exact h.noDying (.inl e)
      · simp [exitPhase] at e
  | toTls hp hv hc =>
    have hx : exitPhase th.ph = true := by rw [hp]; rfl
    have hcb : cbPhase th.ph = true := by rw [hp]; rfl
    refine ⟨⟨h.slot, h.dying, fun k pend r e => by cases e; simp, h.todo, fun e => ?_, fun r hr => ?_, fun e _ => h.win e hcb, ?_, h.dyingEmpty,
      fun e => (by cases e), fun _ e => by simp [cbPhase] at e⟩, by simp⟩
    · rw [h.posix e] at hx; cases hx
    · have := h.pthread r hr; rw [hp] at this; simpa [exitPhase] using this
    · rintro (e | e)
      · exact h.noDying (.inl e)
      · simp [exitPhase] at e
  | @swapAtExit r c hp hv hc =>
    have hx : exitPhase th.ph = true := by rw [hp]; rfl
    have hcb : cbPhase th.ph = true := by rw [hp]; rfl
    have hok := victim_ok h hv
    have hd : th.dying = none := by
      cases hd : th.dying with
      | none => rfl
      | some c' =>
        unfold victim at hv; rw [hd] at hv; cases hv
        exact absurd (h.dyingEmpty _ hd) hc
    simp only [setVictim, hd]
    refine ⟨⟨fun c' e => ?_, by simp, by simp, h.todo, fun e => ?_, fun r hr => ?_, fun e _ => by simp, by simp, by simp,
      fun e => (by cases e), fun _ e => by simp [cbPhase] at e⟩, by simp⟩
    · cases e; exact ctxOk_sub hok (.inl rfl)
    · rw [h.posix e] at hx; cases hx
    · exact absurd hd ((h.pthread r hr).mp hx)
  | @tlsSkip k rest r hp =>
    have hx : exitPhase th.ph = true := by rw [hp]; rfl
    have hcb : cbPhase th.ph = true := by rw [hp]; rfl
    have hpd := h.pend _ _ _ hp
    simp only [List.length_cons] at hpd
    refine ⟨⟨h.slot, h.dying, fun k pend r e => by cases e; omega, h.todo, fun e => ?_, fun r hr => ?_, fun e _ => h.win e hcb, ?_, h.dyingEmpty,
      fun e => (by cases e), fun _ e => by simp [cbPhase] at e⟩, by simp⟩
    · rw [h.posix e] at hx; cases hx
    · have := h.pthread r hr; rw [hp] at this; simpa [exitPhase] using this
    · rintro (e | e)
      · exact h.noDying (.inl e)
      · simp [exitPhase] at e
  | tlsClean hp hk hc =>
    have hx : exitPhase th.ph = true := by rw [hp]; rfl
    have hcb : cbPhase th.ph = true := by rw [hp]; rfl
    have hpd := h.pend _ _ _ hp
    simp only [List.length_cons] at hpd
    refine ⟨⟨h.slot, h.dying, fun k pend r e => by cases e; omega, h.todo, fun e => ?_, fun r hr => ?_, fun e _ => h.win e hcb, ?_, h.dyingEmpty,
      fun e => rfl, fun _ e => by simp [cbPhase] at e⟩, by simp⟩
    · rw [h.posix e] at hx; cases hx
    · have := h.pthread r hr; rw [hp] at this; simpa [exitPhase] using this
    · rintro (e | e)
      · exact h.noDying (.inl e)
      · simp [exitPhase] at e
  | tlsDrop hp hk hc =>
    have hx : exitPhase th.ph = true := by rw [hp]; rfl
    have hcb : cbPhase th.ph = true := by rw [hp]; rfl
    have hpd := h.pend _ _ _ hp
    simp only [List.length_cons] at hpd
    refine ⟨⟨h.slot, h.dying, fun k pend r e => by cases e; omega, h.todo, fun e => ?_, fun r hr => ?_, fun e _ => h.win e hcb, ?_, h.dyingEmpty,
      fun e => (by cases e), fun _ e => by simp [cbPhase] at e⟩, by simp⟩
    · rw [h.posix e] at hx; cases hx
    · have := h.pthread r hr; rw [hp] at this; simpa [exitPhase] using this
    · rintro (e | e)
      · exact h.noDying (.inl e)
      · simp [exitPhase] at e
  | toNotify hp hv hc ht =>
    have hx : exitPhase th.ph = true := by rw [hp]; rfl
    refine ⟨⟨h.slot, h.dying, by simp, h.todo, fun e => ?_, fun r hr => ?_, fun e e' => by simp [cbPhase] at e', ?_, h.dyingEmpty,
      fun e => (by cases e), fun _ _ => ht⟩, by simp⟩
    · rw [h.posix e] at hx; cases hx
    · have := h.pthread r hr; rw [hp] at this; simpa [exitPhase] using this
    · rintro (e | e)
      · exact h.noDying (.inl e)
      · simp [exitPhase] at e
  | @swapTls k r c hp hv hc =>
    have hx : exitPhase th.ph = true := by rw [hp]; rfl
    have hcb : cbPhase th.ph = true := by rw [hp]; rfl
    have hok := victim_ok h hv
    cases hd : th.dying with
    | none =>
      simp only [setVictim, hd]
      refine ⟨⟨fun c' e => ?_, by simp, fun k pend r e => ?_, h.todo, fun e => ?_, fun r hr => ?_, fun e _ => by simp, by simp, by simp,
        fun e => (by cases e), fun _ e => by simp [cbPhase] at e⟩, by simp⟩
      · cases e; exact ctxOk_sub hok (.inr rfl)
      · cases e; have := hok.len; omega
      · rw [h.posix e] at hx; cases hx
      · exact absurd hd ((h.pthread r hr).mp hx)
    | some c' =>
      have hcc : c = c' := by unfold victim at hv; rw [hd] at hv; cases hv; rfl
      subst hcc
      simp only [setVictim, hd]
      refine ⟨⟨h.slot, fun c' e => ?_, fun k pend r e => ?_, h.todo, fun e => ?_, fun r hr => by simp [exitPhase], fun e _ => ?_, ?_, fun c' e => ?_,
        fun e => (by cases e), fun _ e => by simp [cbPhase] at e⟩, by simp⟩
      · cases e; exact ctxOk_sub hok (.inr rfl)
      · cases e; have := hok.len; omega
      · rw [h.posix e] at hx; cases hx
      · exact h.win e hcb
      · rintro (e | e)
        · have := h.noDying (.inl e); rw [hd] at this; cases this
        · simp [exitPhase] at e
      · cases e; exact (h.dyingEmpty c hd : c.atExit = [])
  | notifyOne hp =>
    have hx : exitPhase th.ph = true := by rw [hp]; rfl
    refine ⟨⟨h.slot, h.dying, by simp, h.todo, fun e => ?_, fun r hr => ?_, fun e e' => by simp [cbPhase] at e', ?_, h.dyingEmpty,
      fun e => ?_, fun _ _ => h.idle (by rw [hp]; simp) (by rw [hp]; rfl)⟩, by simp⟩
    · rw [h.posix e] at hx; cases hx
    · have := h.pthread r hr; rw [hp] at this; simpa [exitPhase] using this
    · rintro (e | e)
      · exact h.noDying (.inl e)
      · simp [exitPhase] at e
    · have := h.cb e; rw [hp] at this; cases this
  | endW hc hp =>
    refine ⟨⟨by simp, h.dying, by simp, h.todo, fun _ => rfl, fun r hr => ?_, by simp [cbPhase], fun _ => h.noDying (.inl hc),
      h.dyingEmpty, fun e => ?_, fun _ _ => h.idle (by rw [hp]; simp) (by rw [hp]; rfl)⟩, by simp⟩
    · rw [hc] at hr; cases hr
    · have := h.cb e; rw [hp] at this; cases this
  | endP hc hp =>
    refine ⟨⟨h.slot, by simp, by simp, h.todo, fun _ => rfl, fun r hr => by simp [exitPhase], by simp [cbPhase], fun _ => rfl,
      by simp, fun e => ?_, fun _ _ => h.idle (by rw [hp]; simp) (by rw [hp]; rfl)⟩, by simp⟩
    have := h.cb e; rw [hp] at this; cases this
  | ubAtExit hp hv => exact absurd hv (victim_ne hp rfl)
  | ubTls hp hv => exact absurd hv (victim_ne hp rfl)
  | ubTable hp hk =>
    have := h.pend _ _ _ hp
    simp only [List.length_cons] at this
    rw [List.getElem?_eq_none_iff] at hk
    omega
  | @clean c p rest ht =>
    refine ⟨{ h with todo := fun c p hm => h.todo c p (by rw [ht]; exact List.mem_cons_of_mem _ hm), idle := fun h1 h2 => ?_ }, by simp⟩
    have := h.idle h1 h2; rw [ht] at this; cases this
  | get hu ho hl => exact ⟨h, by simp⟩
  | @reset o ob v hu ho hl =>
    unfold doReset
    dsimp only
    split
    · exact ⟨h, by simp⟩
    · refine ⟨ti_slot h (ctxOk_set (ctxOk_ensure h) (htab.key_lt ho (.inl hl)) ?_), ?_⟩
      · intro p hp
        cases v with
        | none => cases hp
        | some x => cases hp; exact ⟨ob, ho, .inl hl, rfl⟩
      · rw [List.mem_append]
        rintro (e | e)
        · split at e <;> simp at e
        · split at e
          · split at e <;> simp at e
          · simp at e
  | @release o ob hu ho hl =>
    unfold doRelease
    split
    · exact ⟨ti_slot h (ctxOk_set (ctxOk_ensure h) (htab.key_lt ho (.inl hl)) (by simp)), by simp⟩
    · exact ⟨h, by simp⟩
  | register hu => exact ⟨ti_slot h (ctxOk_sub (ctxOk_ensure h) (.inl rfl)), by simp⟩
  | notifyReg hu => exact ⟨ti_slot h (ctxOk_sub (ctxOk_ensure h) (.inl rfl)), by simp⟩

/-! ## new_key -/

theorem get_append_one {α} {l : List α} {x a : α} {i : Nat} (h : (l ++ [x])[i]? = some a) : l[i]? = some a ∨ (i = l.length ∧ a = x) := by
  rw [List.getElem?_append] at h
  split at h
  · exact .inl h
  · next hl =>
    rw [List.getElem?_singleton] at h
    split at h
    · cases h; exact .inr ⟨by omega, rfl⟩
    · cases h

theorem tab_newKey {s : St} {c d : Bool} {s' : St} {es : List Ev} (h : Tab s.objs s.table s.freed) (hn : newKey s c d = some (s', es)) :
    Tab s'.objs s'.table s'.freed ∧ s'.threads = s.threads ∧ es = [.created s.objs.length] ∧ s.table.length ≤ s'.table.length ∧
      ∃ k, s'.objs = s.objs ++ [⟨k, true, c, d⟩] ∧ ∀ (o : Nat) ob, s.objs[o]? = some ob → ob.holding → ob.key ≠ k := by
  unfold newKey at hn
  dsimp only at hn
  split at hn
  · next k freed hf =>
    obtain ⟨hk1, hk2⟩ := h.freed k (by rw [hf]; simp)
    split at hn
    · next hx => rw [List.getElem?_eq_none_iff] at hx; omega
    · cases hn
      have hnd := h.nodup
      rw [hf, List.nodup_cons] at hnd
      refine ⟨⟨?_, ?_, ?_, hnd.2⟩, rfl, rfl, by simp, k, rfl, hk2⟩
      · intro o ob ho hh
        rcases get_append_one ho with ho | ⟨rfl, rfl⟩
        · dsimp only
          rw [List.getElem?_set, if_neg (Ne.symm (hk2 o ob ho hh))]
          exact h.key o ob ho hh
        · dsimp only
          rw [List.getElem?_set]; simp [hk1]
      · intro o o' ob ob' ho ho' hh hh' he
        rcases get_append_one ho with ho | ⟨rfl, rfl⟩ <;> rcases get_append_one ho' with ho' | ⟨rfl, rfl⟩
        · exact h.uniq o o' ob ob' ho ho' hh hh' he
        · exact absurd he (hk2 o ob ho hh)
        · exact absurd he.symm (hk2 o' ob' ho' hh')
        · rfl
      · intro k' hk'
        obtain ⟨a, b⟩ := h.freed k' (by rw [hf]; exact List.mem_cons_of_mem _ hk')
        refine ⟨by simpa using a, fun o ob ho hh => ?_⟩
        rcases get_append_one ho with ho | ⟨rfl, rfl⟩
        · exact b o ob ho hh
        · rintro rfl; exact hnd.1 hk'
  · next hf =>
    cases hn
    refine ⟨⟨?_, ?_, by simp [hf], by simp [hf]⟩, rfl, rfl, by simp, _, rfl, ?_⟩
    · intro o ob ho hh
      rcases get_append_one ho with ho | ⟨rfl, rfl⟩
      · dsimp only
        rw [List.getElem?_append_left (h.key_lt ho hh)]
        exact h.key o ob ho hh
      · dsimp only
        rw [List.getElem?_append_right (Nat.le_refl _)]; simp
    · intro o o' ob ob' ho ho' hh hh' he
      rcases get_append_one ho with ho | ⟨rfl, rfl⟩ <;> rcases get_append_one ho' with ho' | ⟨rfl, rfl⟩
      · exact h.uniq o o' ob ob' ho ho' hh hh' he
      · have := h.key_lt ho hh; dsimp only at he; omega
      · have := h.key_lt ho' hh'; dsimp only at he; omega
      · rfl
    · intro o ob ho hh
      have := h.key_lt ho hh
      omega

theorem ctxOk_mono {objs objs' : List Obj} {table table' : List Info} {c : Ctx} (hl : table.length ≤ table'.length)
    (ho : ∀ k p, c.storage[k]? = some (some p) → Owner objs k p → Owner objs' k p) (h : CtxOk objs table c) : CtxOk objs' table' c :=
  ⟨Nat.le_trans h.len hl, fun k p hp => ho k p hp (h.owner k p hp)⟩

theorem ti_create {cfg objs table table' th x} (hl : table.length ≤ table'.length) (h : TI cfg objs table th) :
    TI cfg (objs ++ [x]) table' th := by
  have hget : ∀ (i : Nat) (ob : Obj), objs[i]? = some ob → (objs ++ [x])[i]? = some ob := by
    intro i ob hi
    rw [List.getElem?_append_left (List.getElem?_eq_some_iff.mp hi).1]; exact hi
  have hown : ∀ k p, Owner objs k p → Owner (objs ++ [x]) k p := fun k p ⟨ob, h1, h2⟩ => ⟨ob, hget _ _ h1, h2⟩
  exact { h with
    slot := fun c hc => ctxOk_mono hl (fun k p _ => hown k p) (h.slot c hc)
    dying := fun c hc => ctxOk_mono hl (fun k p _ => hown k p) (h.dying c hc)
    pend := fun k pend r hp => Nat.le_trans (h.pend k pend r hp) hl
    todo := fun c p hm => ⟨(h.todo c p hm).1, let ⟨ob, h1, h2⟩ := (h.todo c p hm).2; ⟨ob, hget _ _ h1, h2⟩⟩ }

end Verif.Tss
