import Verif.Base.Numbered
import Verif.Spec.SpinMutex
import Verif.Spec.SharedSpinMutex
import Verif.Spec.WinMutex
import Verif.Spec.AutoEventFutex
import Verif.Spec.ManualEventFutex
import Verif.Spec.MonitorOrder

/-!
# C02, C07, C13, C22, C31 and C105: the items are told apart

What the users' code does has numbers; no two items have the same.
-/

namespace Verif

theorem Spin.C02_items {v : Variant} {n : Nat} {tr : List Ev} {s : St} (h : Exec (step v) (init n) tr s) : ((tr.filterMap workOf).map Prod.snd).Nodup := by
  refine numbered_nodup (fresh := St.fresh) rfl ?_ h
  intro s ⟨t, a⟩ s' es h
  unfold step at h
  dsimp only at h
  (repeat' split at h) <;> first | contradiction | (obtain ⟨rfl, rfl⟩ := Prod.mk.inj (Option.some.inj h); simp [Numbers, workOf])

theorem SharedSpin.C07_items {n : Nat} {tr : List Ev} {s : St} (h : Exec step (init n) tr s) : ((tr.filterMap workOf).map Prod.snd).Nodup := by
  refine numbered_nodup (fresh := St.fresh) rfl ?_ h
  intro s ⟨t, a⟩ s' es h
  unfold step at h
  dsimp only at h
  (repeat' split at h) <;> first | contradiction | (obtain ⟨rfl, rfl⟩ := Prod.mk.inj (Option.some.inj h); simp [Numbers, workOf])

theorem WinMutex.C13_items {n : Nat} {tr : List Ev} {s : St} (h : Exec step (init n) tr s) : ((tr.filterMap workOf).map Prod.snd).Nodup := by
  refine numbered_nodup (fresh := St.fresh) rfl ?_ h
  intro s ⟨t, a⟩ s' es h
  unfold step at h
  dsimp only at h
  (repeat' split at h) <;> first | contradiction | (obtain ⟨rfl, rfl⟩ := Prod.mk.inj (Option.some.inj h); (try split) <;> simp [Numbers, workOf])

theorem AutoFutex.C22_items {n : Nat} {tr : List Ev} {s : St} (h : Exec step (init n) tr s) : ((tr.filterMap workOf).map Prod.snd).Nodup := by
  refine numbered_nodup (fresh := St.fresh) rfl ?_ h
  intro s ⟨t, a⟩ s' es h
  have hk : ∀ k, workOf (retEv t k true) = none := by intro k; cases k <;> rfl
  unfold step at h
  dsimp only at h
  (repeat' split at h) <;> first | contradiction | (obtain ⟨rfl, rfl⟩ := Prod.mk.inj (Option.some.inj h); first | (simp [Numbers, hk]; done) | simp [Numbers, workOf])

theorem ManualFutex.C31_items {n : Nat} {tr : List Ev} {s : St} (h : Exec step (init n) tr s) : ((tr.filterMap workOf).map Prod.snd).Nodup := by
  refine numbered_nodup (fresh := St.fresh) rfl ?_ h
  intro s ⟨t, a⟩ s' es h
  have hk : ∀ k, workOf (retEv t k true) = none := by intro k; cases k <;> rfl
  unfold step at h
  dsimp only at h
  (repeat' split at h) <;> first | contradiction | (obtain ⟨rfl, rfl⟩ := Prod.mk.inj (Option.some.inj h); first | (simp [Numbers, hk]; done) | simp [Numbers, workOf])

theorem MonitorOrder.C105_items {D S : Type} {M : Monitor.Mon D S} {n : Nat} {tr : List (Ev S)} {s : St D S} (h : Exec (step M) (init M n) tr s) :
    ((tr.filterMap workOf).map Prod.snd).Nodup := by
  refine numbered_nodup (fresh := St.fresh) rfl ?_ h
  intro s ⟨t, a⟩ s' es h
  have hk : ∀ (pc : Monitor.PC S) (es : List (Atomic.Ev S)), (puts t pc ++ es.map Ev.ev).filterMap workOf = [] := by
    intro pc es
    rw [List.filterMap_eq_nil_iff]
    intro e he
    rcases List.mem_append.mp he with h | h
    · cases pc <;> simp [puts] at h
      rw [h]; rfl
    · obtain ⟨x, _, rfl⟩ := List.mem_map.mp h
      rfl
  unfold step at h
  dsimp only at h
  (repeat' split at h) <;> first | contradiction | (obtain ⟨rfl, rfl⟩ := Prod.mk.inj (Option.some.inj h); first | exact .inl ⟨hk _ _, rfl⟩ | simp [Numbers, workOf])

/-! ## The hypotheses are met -/

/-- Two threads do something each. -/
example : ∃ s tr, runFrom (Spin.step .boolTTS) (Spin.init 2) [(0, .doWork), (1, .doWork), (0, .doWork)] = some (s, tr) ∧
    tr.filterMap Spin.workOf = [(0, 0), (1, 1), (0, 2)] := ⟨_, _, rfl, rfl⟩

example : ∃ s tr, runFrom SharedSpin.step (SharedSpin.init 2) [(0, .doWork), (1, .doWork)] = some (s, tr) ∧
    tr.filterMap SharedSpin.workOf = [(0, 0), (1, 1)] := ⟨_, _, rfl, rfl⟩

example : ∃ s tr, runFrom WinMutex.step (WinMutex.init 2) [(0, .doWork), (1, .doWork)] = some (s, tr) ∧
    tr.filterMap WinMutex.workOf = [(0, 0), (1, 1)] := ⟨_, _, rfl, rfl⟩

example : ∃ s tr, runFrom AutoFutex.step (AutoFutex.init 2) [(0, .doWork), (1, .doWork)] = some (s, tr) ∧
    tr.filterMap AutoFutex.workOf = [(0, 0), (1, 1)] := ⟨_, _, rfl, rfl⟩

example : ∃ s tr, runFrom ManualFutex.step (ManualFutex.init 2) [(0, .doWork), (1, .doWork)] = some (s, tr) ∧
    tr.filterMap ManualFutex.workOf = [(0, 0), (1, 1)] := ⟨_, _, rfl, rfl⟩

example : ∃ s tr, runFrom (MonitorOrder.step (Monitor.manualEvent Monitor.userClock)) (MonitorOrder.init (Monitor.manualEvent Monitor.userClock) 2)
    [(0, .doWork), (1, .doWork)] = some (s, tr) ∧ tr.filterMap MonitorOrder.workOf = [(0, 0), (1, 1)] := ⟨_, _, rfl, rfl⟩

end Verif
