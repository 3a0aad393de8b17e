import Verif.Model.Tss
import Verif.Base.Count

/-! # Steps of the TSS model as a relation -/

namespace Verif.Tss

/-- Steps that change only the thread that moves. -/
inductive LStep (cfg : Cfg) (objs : List Obj) (table : List Info) (t : Nat) (th : Thread) : Thread → List Ev → Prop
  | beginExit : th.ph = .running → th.todo = [] → LStep cfg objs table t th { th with ph := .between 0 } [.exiting t]
  | tlsEnd {r} : cfg = .posixTls → th.ph = .between r → LStep cfg objs table t th { th with ph := .done } [.ended t]
  | noCtx {r} : th.slot = none → th.ph = .between r → LStep cfg objs table t th { th with ph := .done } [.ended t]
  | exhausted {r rounds c} : cfg = .pthreadKey rounds → th.slot = some c → rounds ≤ r → th.ph = .between r →
      LStep cfg objs table t th { th with ph := .done } [.ended t]
  | enterP {r rounds c} : cfg = .pthreadKey rounds → th.slot = some c → r < rounds → th.ph = .between r → th.todo = [] →
      LStep cfg objs table t th { th with slot := none, dying := some { c with atExit := [] }, ph := .atExit c.atExit.reverse r } []
  | enterW {r c} : cfg = .windows → th.slot = some c → th.ph = .between r → th.todo = [] →
      LStep cfg objs table t th { th with slot := some { c with atExit := [] }, ph := .atExit c.atExit.reverse r } []
  | ran {id rest r} : th.ph = .atExit (id :: rest) r → LStep cfg objs table t th { th with ph := .atExit rest r, cb := true } [.ran t id]
  | toTls {r c} : th.ph = .atExit [] r → victim th = some c → c.atExit = [] →
      LStep cfg objs table t th { th with ph := .tls 0 [] r, cb := false } []
  | swapAtExit {r c} : th.ph = .atExit [] r → victim th = some c → c.atExit ≠ [] →
      LStep cfg objs table t th { setVictim th (some { c with atExit := [] }) with ph := .atExit c.atExit.reverse r, cb := false } []
  | tlsSkip {k rest r} : th.ph = .tls k (none :: rest) r → LStep cfg objs table t th { th with ph := .tls (k + 1) rest r, cb := false } []
  | tlsClean {k p rest r info c} : th.ph = .tls k (some p :: rest) r → table[k]? = some info → info.cleanup = some c →
      LStep cfg objs table t th { th with ph := .tls (k + 1) rest r, cb := true } [.cleaned t .exit c p]
  | tlsDrop {k p rest r info} : th.ph = .tls k (some p :: rest) r → table[k]? = some info → info.cleanup = none →
      LStep cfg objs table t th { th with ph := .tls (k + 1) rest r, cb := false } [.dropped t p]
  | toNotify {k r c} : th.ph = .tls k [] r → victim th = some c → c.storage = [] → th.todo = [] →
      LStep cfg objs table t th { th with ph := .notify c.notify r, cb := false } []
  | swapTls {k r c} : th.ph = .tls k [] r → victim th = some c → c.storage ≠ [] →
      LStep cfg objs table t th { setVictim th (some { c with storage := [] }) with ph := .tls 0 c.storage r, cb := false } []
  | notifyOne {n rest r} : th.ph = .notify (n :: rest) r →
      LStep cfg objs table t th { th with ph := .notify rest r } [.unlocked t n.1, .notified t n.2]
  | endW {r} : cfg = .windows → th.ph = .notify [] r → LStep cfg objs table t th { th with slot := none, ph := .done } [.ended t]
  | endP {r} : cfg ≠ .windows → th.ph = .notify [] r → LStep cfg objs table t th { th with dying := none, ph := .between (r + 1) } []
  | ubAtExit {r} : th.ph = .atExit [] r → victim th = none → LStep cfg objs table t th th [.ub]
  | ubTls {k r} : th.ph = .tls k [] r → victim th = none → LStep cfg objs table t th th [.ub]
  | ubTable {k p rest r} : th.ph = .tls k (some p :: rest) r → table[k]? = none → LStep cfg objs table t th th [.ub]
  | clean {c p rest} : th.todo = (c, p) :: rest → LStep cfg objs table t th { th with todo := rest } [.cleaned t .deleted c p]
  | get {o ob} : userCode th = true → objs[o]? = some ob → ob.live = true →
      LStep cfg objs table t th th [.got t o ((getSpecific th ob.key).map Ptr.v)]
  | reset {o ob v} : userCode th = true → objs[o]? = some ob → ob.live = true →
      LStep cfg objs table t th (doReset t o ob th v).1 (doReset t o ob th v).2
  | release {o ob} : userCode th = true → objs[o]? = some ob → ob.live = true →
      LStep cfg objs table t th (doRelease t o ob th).1 (doRelease t o ob th).2
  | register {id} : userCode th = true →
      LStep cfg objs table t th { th with slot := some { ensureCtx th with atExit := (ensureCtx th).atExit ++ [id] } } [.registered t id]
  | notifyReg {n} : userCode th = true →
      LStep cfg objs table t th { th with slot := some { ensureCtx th with notify := (ensureCtx th).notify ++ [n] } } [.notifyRegistered t n]

theorem lstep_exitStep {cfg objs table t th r} (ht : th.todo = []) (h : exitStep cfg table t th = some r) :
    LStep cfg objs table t th r.1 r.2 := by
  unfold exitStep at h
  split at h
  · cases h
  · cases h
  · next r' hph =>
    split at h
    · cases h; exact .tlsEnd rfl hph
    · split at h
      · next hs => cases h; exact .noCtx hs hph
      · next c hs =>
        split at h
        · next hr => cases h; exact .enterP rfl hs hr hph ht
        · next hr => cases h; exact .exhausted rfl hs (Nat.le_of_not_lt hr) hph
    · split at h
      · next hs => cases h; exact .noCtx hs hph
      · next c hs => cases h; exact .enterW rfl hs hph ht
  · next hph => cases h; exact .ran hph
  · next hph =>
    split at h
    · next hv => cases h; exact .ubAtExit hph hv
    · next c hv =>
      split at h
      · next hc => cases h; exact .toTls hph hv hc
      · next hc => cases h; exact .swapAtExit hph hv hc
  · next hph => cases h; exact .tlsSkip hph
  · next hph =>
    split at h
    · next hk => cases h; exact .ubTable hph hk
    · next info hk =>
      split at h
      · next hc => cases h; exact .tlsClean hph hk hc
      · next hc => cases h; exact .tlsDrop hph hk hc
  · next hph =>
    split at h
    · next hv => cases h; exact .ubTls hph hv
    · next c hv =>
      split at h
      · next hc => cases h; exact .toNotify hph hv hc ht
      · next hc => cases h; exact .swapTls hph hv hc
  · next hph => cases h; exact .notifyOne hph
  · next hph =>
    split at h
    · cases h; exact .endW rfl hph
    · next hw => cases h; exact .endP (fun e => hw e) hph

theorem liveObj_some {s : St} {o : Nat} {ob : Obj} (h : liveObj s o = some ob) : s.objs[o]? = some ob ∧ ob.live = true := by
  unfold liveObj at h
  split at h
  · next hx => split at h <;> cases h; exact ⟨hx, ‹_›⟩
  · cases h

inductive SStep (cfg : Cfg) (s : St) (t : Nat) : Op → St → List Ev → Prop
  | localStep {op th th' es} : s.threads[t]? = some th → LStep cfg s.objs s.table t th th' es →
      SStep cfg s t op { s with threads := s.threads.set t th' } es
  | create {th c d s' es} : s.threads[t]? = some th → userCode th = true → newKey s c d = some (s', es) → SStep cfg s t (.create c d) s' es
  | destroy {th o ob} : s.threads[t]? = some th → userCode th = true → s.objs[o]? = some ob → ob.live = true →
      SStep cfg s t (.destroy o) (deleteKey s t o ob).1 (deleteKey s t o ob).2

theorem set_same {l : List Thread} {t : Nat} {th : Thread} (h : l[t]? = some th) : l.set t th = l := by
  apply List.ext_getElem?
  intro i
  rw [List.getElem?_set]
  split
  · next e =>
    subst e
    obtain ⟨hl, _⟩ := List.getElem?_eq_some_iff.mp h
    simp [hl]
    exact (List.getElem?_eq_some_iff.mp h).2.symm
  · rfl

theorem sstep_of_step {cfg s t op s' es} (h : step cfg s (t, op) = some (s', es)) : SStep cfg s t op s' es := by
  unfold step at h
  dsimp only at h
  split at h
  · cases h
  · next th hth =>
    split at h
    · split at h
      · next hc => cases h; exact .localStep hth (.beginExit hc.1 hc.2)
      · cases h
    · split at h
      · next ht =>
        split at h
        · cases h
        · next r hr => cases h; exact .localStep hth (lstep_exitStep ht hr)
      · cases h
    · split at h
      · cases h
      · next hc => cases h; exact .localStep hth (.clean hc)
    · split at h
      · next hu =>
        split at h
        · exact .create hth hu h
        · split at h
          · cases h
          · next ob ho =>
            obtain ⟨h1, h2⟩ := liveObj_some ho
            have h := Option.some.inj h
            have e1 : s' = (deleteKey s t _ ob).1 := (congrArg Prod.fst h).symm
            have e2 : es = (deleteKey s t _ ob).2 := (congrArg Prod.snd h).symm
            rw [e1, e2]
            exact .destroy hth hu h1 h2
        · split at h
          · cases h
          · next ob ho =>
            obtain ⟨h1, h2⟩ := liveObj_some ho
            cases h
            have := SStep.localStep (op := .get ‹_›) hth (LStep.get (cfg := cfg) (table := s.table) hu h1 h2)
            rw [set_same hth] at this
            exact this
        · split at h
          · cases h
          · next ob ho =>
            obtain ⟨h1, h2⟩ := liveObj_some ho
            cases h
            exact .localStep hth (.reset hu h1 h2)
        · split at h
          · cases h
          · next ob ho =>
            obtain ⟨h1, h2⟩ := liveObj_some ho
            cases h
            exact .localStep hth (.release hu h1 h2)
        · cases h; exact .localStep hth (.register hu)
        · cases h; exact .localStep hth (.notifyReg hu)
        · cases h
      · cases h

end Verif.Tss
