import Verif.Model.WinCondVar
import Verif.Base.Count

/-! # The steps of the Windows condition variable, grouped by their effect -/

namespace Verif.WinCv

/-- Steps that only move the thread. -/
inductive Goto (s : St) (t : Nat) : PC → PC → List Ev → Prop
  | callAbs (h : s.user = some t) : Goto s t .idle .wTimer [.called t .abs]
  | call (k) (h : s.user = some t) : Goto s t .idle (.wEnter k) [.called t k]
  | timer : Goto s t .wTimer (.wEnter .abs) []
  | timerFail : Goto s t .wTimer .idle [.ret t .threw]
  | search (k) (h : s.nodes ≠ []) : Goto s t (.wInit k) (.wLoop k s.waitSt) []
  | initFail (k) (h : s.nodes = []) : Goto s t (.wInit k) .wAbort []
  | newFail (k e) : Goto s t (.wNew k e) .wAbort []
  | timeout (k q) : Goto s t (.blocked k q) (.expired q) []
  | waitFail (k q) : Goto s t (.blocked k q) (.failed q) []
  | notify (all) : Goto s t .idle (.nLoad all) [.notify t all]
  | load (all) : Goto s t (.nLoad all) (.nEnter all) []
  | loadZero (all) : Goto s t (.nLoad all) .idle [.notified t]

/-- Steps that lock the internal mutex. -/
inductive Enter : PC → PC → Prop
  | wait (k) : Enter (.wEnter k) (.wInit k)
  | tok (k q) : Enter (.gotTok k q) (.inTok k q)
  | expired (q) : Enter (.expired q) (.inExpired q)
  | failed (q) : Enter (.failed q) (.inFailed q)
  | notify (all) : Enter (.nEnter all) (.nCheck all)

/-- Steps that unlock the internal mutex and change nothing else. -/
inductive Exit (s : St) (t : Nat) : PC → PC → List Ev → Prop
  | abort : Exit s t .wAbort .idle [.ret t .threw]
  | wait (k q) : Exit s t (.wExit k q) (.wUnlock k q) []
  | stale (k q x) (hx : s.nodes[q]? = some x) (h : x.n = 0) : Exit s t (.inTok k q) (.blocked k q) []
  | notify : Exit s t .nExit .idle [.notified t]

/-- The end of a wait. -/
inductive Leave : PC → Nat → Result → Prop
  | tok (k q) : Leave (.inTok k q) q .noTimeout
  | expired (q) : Leave (.inExpired q) q .noTimeout
  | failed (q) : Leave (.inFailed q) q .threw

/-- The end of a wait that was not notified. -/
inductive Leave0 : PC → Nat → Result → Prop
  | expired (q) : Leave0 (.inExpired q) q .timeout
  | failed (q) : Leave0 (.inFailed q) q .threw

/-- What a thread executing `wake_waiters` does to the node `x`. -/
def Node.wake (x : Node) (m call : Nat) : Node :=
  { x with n := x.n + m, tok := release x.tok m, units := x.units ++ List.replicate m call }

inductive Step (s : St) (t : Nat) : St → List Ev → Prop
  | userLock (h : s.ths[t]? = some .idle) (hu : s.user = none) : Step s t { s with user := some t } []
  | userUnlock (h : s.ths[t]? = some .idle) (hu : s.user = some t) : Step s t { s with user := none } []
  | goto {pc pc' es} (h : s.ths[t]? = some pc) (hg : Goto s t pc pc' es) :
      Step s t { s with ths := s.ths.set t pc' } es
  | enter {pc pc'} (h : s.ths[t]? = some pc) (hg : Enter pc pc') (ho : s.owner = none) :
      Step s t { s with owner := some t, ths := s.ths.set t pc' } []
  | exit {pc pc' es} (h : s.ths[t]? = some pc) (hg : Exit s t pc pc' es) :
      Step s t { s with owner := none, ths := s.ths.set t pc' } es
  | first {k} (h : s.ths[t]? = some (.wInit k)) (hn : s.nodes = []) :
      Step s t { s with nodes := [⟨1, 0, 0, 0, []⟩], notify := 0, waitSt := 0, total := 1,
                        ths := s.ths.set t (.wExit k 0) } [.registered t]
  | join {k e x} (h : s.ths[t]? = some (.wLoop k e)) (hx : s.nodes[s.waitSt]? = some x) (hn : x.n = 0)
      (hw : x.w < longMax) :
      Step s t { s with nodes := s.nodes.set s.waitSt { x with w := x.w + 1 }, total := s.total + 1,
                        ths := s.ths.set t (.wExit k s.waitSt) } [.registered t]
  | advance {k e x} (h : s.ths[t]? = some (.wLoop k e)) (hx : s.nodes[s.waitSt]? = some x)
      (hn : ¬ (x.n = 0 ∧ x.w < longMax)) (he : x.next ≠ e) : Step s t { s with waitSt := x.next } []
  | around {k e x} (h : s.ths[t]? = some (.wLoop k e)) (hx : s.nodes[s.waitSt]? = some x)
      (hn : ¬ (x.n = 0 ∧ x.w < longMax)) (he : x.next = e) :
      Step s t { s with waitSt := x.next, ths := s.ths.set t (.wNew k e) } []
  | create {k e x} (h : s.ths[t]? = some (.wNew k e)) (hx : s.nodes[e]? = some x) :
      Step s t { s with nodes := s.nodes.set e { x with next := s.nodes.length } ++ [⟨1, 0, 0, x.next, []⟩],
                        waitSt := s.nodes.length, total := s.total + 1,
                        ths := s.ths.set t (.wExit k s.nodes.length) } [.registered t]
  | unlock {k q} (h : s.ths[t]? = some (.wUnlock k q)) :
      Step s t { s with user := none, ths := s.ths.set t (.blocked k q) } [.unlocked t]
  | token {k q x} (h : s.ths[t]? = some (.blocked k q)) (hx : s.nodes[q]? = some x) (ht : 0 < x.tok) :
      Step s t { s with nodes := s.nodes.set q { x with tok := x.tok - 1 }, ths := s.ths.set t (.gotTok k q) } []
  | leave {pc q r x} (h : s.ths[t]? = some pc) (hl : Leave pc q r) (hx : s.nodes[q]? = some x) (hn : 0 < x.n) :
      Step s t { s with nodes := s.nodes.set q x.leave, owner := none, ths := s.ths.set t (.relock r) }
        [.took t (x.units.headD 0)]
  | leave0 {pc q r x} (h : s.ths[t]? = some pc) (hl : Leave0 pc q r) (hx : s.nodes[q]? = some x) (hn : x.n = 0) :
      Step s t { s with nodes := s.nodes.set q x.leave, total := s.total - 1, owner := none,
                        ths := s.ths.set t (.relock r) } []
  | relock {r} (h : s.ths[t]? = some (.relock r)) (hu : s.user = none) :
      Step s t { s with user := some t, ths := s.ths.set t .idle } [.ret t r]
  | decide0 {all} (h : s.ths[t]? = some (.nCheck all)) (h0 : s.total = 0) :
      Step s t { s with calls := s.calls + 1, ths := s.ths.set t .nExit } [.decided t all 0]
  | decide {all c} (h : s.ths[t]? = some (.nCheck all)) (h0 : s.total ≠ 0) (hc : c = if all then s.total else 1) :
      Step s t { s with total := s.total - c, calls := s.calls + 1, ths := s.ths.set t (.waking c) } [.decided t all c]
  | wakeLast {c x m} (h : s.ths[t]? = some (.waking c)) (hx : s.nodes[s.notify]? = some x)
      (hm : m = min (x.w - x.n) c) (hc : c - m = 0) :
      Step s t { s with nodes := s.nodes.set s.notify (x.wake m s.calls), ths := s.ths.set t .nExit } [.issued t m]
  | wakeNext {c x m} (h : s.ths[t]? = some (.waking c)) (hx : s.nodes[s.notify]? = some x)
      (hm : m = min (x.w - x.n) c) (hc : c - m ≠ 0) :
      Step s t { s with nodes := s.nodes.set s.notify (x.wake m s.calls), notify := x.next,
                        ths := s.ths.set t (.waking (c - m)) } [.issued t m]

theorem step_sound {s s' : St} {t : Nat} {a : Act} {es : List Ev} (h : step s (t, a) = some (s', es)) :
    Step s t s' es := by
  unfold step at h
  simp only at h
  split at h
  · cases h
  next pc ht =>
  split at h
  · split at h
    rotate_left
    · cases h
    next hu => cases h; exact .userLock ht hu
  · split at h
    rotate_left
    · cases h
    next hu => cases h; exact .userUnlock ht hu
  · next k =>
    split at h
    rotate_left
    · cases h
    next hu =>
    cases h
    cases k
    · exact .goto ht (.call _ hu)
    · exact .goto ht (.call _ hu)
    · exact .goto ht (.callAbs hu)
  · cases h; exact .goto ht .timer
  · cases h; exact .goto ht .timerFail
  · split at h
    rotate_left
    · cases h
    next ho => cases h; exact .enter ht (.wait _) ho
  · split at h
    · next hn => cases h; exact .first ht hn
    · next hn => cases h; exact .goto ht (.search _ hn)
  · split at h
    rotate_left
    · cases h
    next hn => cases h; exact .goto ht (.initFail _ hn)
  · split at h
    · cases h
    next x hx =>
    split at h
    · next hc => cases h; exact .join ht hx hc.1 hc.2
    · next hc =>
      split at h
      · next he => cases h; exact .around ht hx hc he
      · next he => cases h; exact .advance ht hx hc he
  · split at h
    · cases h
    next x hx => cases h; exact .create ht hx
  · cases h; exact .goto ht (.newFail _ _)
  · cases h; exact .exit ht .abort
  · cases h; exact .exit ht (.wait _ _)
  · cases h; exact .unlock ht
  · split at h
    · cases h
    next x hx =>
    split at h
    rotate_left
    · cases h
    next hp => cases h; exact .token ht hx hp
  · split at h
    rotate_left
    · cases h
    cases h; exact .goto ht (.timeout _ _)
  · cases h; exact .goto ht (.waitFail _ _)
  · split at h
    rotate_left
    · cases h
    next ho => cases h; exact .enter ht (.tok _ _) ho
  · split at h
    · cases h
    next x hx =>
    split at h
    · next hp => cases h; exact .leave ht (.tok _ _) hx hp
    · next hp => cases h; exact .exit ht (.stale _ _ x hx (by omega))
  · split at h
    rotate_left
    · cases h
    next ho => cases h; exact .enter ht (.expired _) ho
  · split at h
    · cases h
    next x hx =>
    split at h
    · next hp => cases h; exact .leave ht (.expired _) hx hp
    · next hp => cases h; exact .leave0 ht (.expired _) hx (by omega)
  · split at h
    rotate_left
    · cases h
    next ho => cases h; exact .enter ht (.failed _) ho
  · split at h
    · cases h
    next x hx =>
    split at h
    · next hp => cases h; exact .leave ht (.failed _) hx hp
    · next hp => cases h; exact .leave0 ht (.failed _) hx (by omega)
  · split at h
    rotate_left
    · cases h
    next ho => cases h; exact .relock ht ho
  · cases h; exact .goto ht (.notify _)
  · split at h
    · next hp => cases h; exact .goto ht (.load _)
    · next hp => cases h; exact .goto ht (.loadZero _)
  · split at h
    rotate_left
    · cases h
    next ho => cases h; exact .enter ht (.notify _) ho
  · split at h
    · next hp => cases h; exact .decide0 ht hp
    · next hp => cases h; exact .decide ht hp rfl
  · split at h
    · cases h
    next x hx =>
    split at h
    · next hc => cases h; exact .wakeLast ht hx rfl hc
    · next hc => cases h; exact .wakeNext ht hx rfl hc
  · cases h; exact .exit ht .notify
  · cases h

end Verif.WinCv
