import Verif.Spec.Newest
import Verif.Proof.AutoSemOrder
import Verif.Proof.AutoFutexOrder
import Verif.Proof.ManualFutexOrder
import Verif.Proof.MonitorOrder
import Verif.Proof.WinCvOrder

/-! Helper lemmas for the coverage theorems. -/

namespace Verif

/-- Forward simulation. -/
theorem covers_of_sim {σ ι ε σ' ι' ε' : Type} {step : StepFn σ ι ε} {s₀ : σ} {base : σ → σ'} {plain : List ε → List ε'} {step' : StepFn σ' ι' ε'} {s₀' : σ'}
    (R : σ → Prop) (h0 : R s₀) (hb : base s₀ = s₀') (hp : plain [] = []) (happ : ∀ a b, plain (a ++ b) = plain a ++ plain b)
    (hs : ∀ s l b es, R s → step' (base s) l = some (b, es) → ∃ l' s' es', step s l' = some (s', es') ∧ base s' = b ∧ plain es' = es ∧ R s') :
    Covers step s₀ base plain step' s₀' := by
  intro tr b h
  suffices ∃ tr' s, Exec step s₀ tr' s ∧ base s = b ∧ plain tr' = tr ∧ R s by
    obtain ⟨tr', s, h1, h2, h3, _⟩ := this
    exact ⟨tr', s, h1, h2, h3⟩
  induction h with
  | init => exact ⟨[], s₀, .init, hb, hp, h0⟩
  | snoc _ hst ih =>
    obtain ⟨tr', s, h1, rfl, rfl, h4⟩ := ih
    obtain ⟨l', s', es', k1, k2, k3, k4⟩ := hs s _ _ _ h4 hst
    exact ⟨_, s', h1.snoc k1, k2, by rw [happ, k3], k4⟩

theorem last_idx {α : Type} {l : List α} {x : α} (h : l.getLast? = some x) : l[l.length - 1]? = some x := by
  rw [← h, List.getLast?_eq_getElem?]

theorem set_lt {l : List Nat} {n t i : Nat} (h : ∀ p ∈ l, p < n) (hi : i < n) : ∀ p ∈ l.set t i, p < n := by
  intro p hp
  rcases List.mem_or_eq_of_mem_set hp with hp | rfl
  · exact h p hp
  · exact hi

theorem get_of_len {α β : Type} {l : List α} {l' : List β} (h : l'.length = l.length) {t : Nat} {x : α} (hx : l[t]? = some x) : ∃ y, l'[t]? = some y := by
  obtain ⟨hlt, _⟩ := List.getElem?_eq_some_iff.mp hx
  exact ⟨l'[t]'(by omega), List.getElem?_eq_getElem _⟩

namespace AutoFutexOrder

open AutoFutex (PC Th)

/-- What the simulation needs. -/
structure Fits (s : St) : Prop where
  last : s.hist.getLast? = some s.base.word.val
  len : s.pos.length = s.base.ths.length
  lt : ∀ p ∈ s.pos, p < s.hist.length

theorem fits_init (n : Nat) : Fits (init n) := ⟨rfl, by simp [init, AutoFutex.init], fun p h => by simp [init] at h; simp [init, h.2]⟩

theorem base_len {s b : AutoFutex.St} {l : Nat × AutoFutex.Act} {es : List AutoFutex.Ev} (h : AutoFutex.step s l = some (b, es)) : b.ths.length = s.ths.length := by
  obtain ⟨t, a⟩ := l
  unfold AutoFutex.step at h
  simp only at h
  (repeat' split at h) <;> first | contradiction | (obtain ⟨rfl, rfl⟩ := Prod.mk.inj (Option.some.inj h); simp; done)

theorem plain_changed (t : Nat) (w : UInt32) (es : List AutoFutex.Ev) : plain (.changed t w :: es.map .ev) = es := plain_ev es

theorem plain_app (a b : List Ev) : plain (a ++ b) = plain a ++ plain b := List.filterMap_append

/-- Where an action is not that of the plain model, it is a compare-exchange that fails. -/
theorem not_direct {s : AutoFutex.St} {t : Nat} {th : Th} {a : AutoFutex.Act} (ht : s.ths[t]? = some th) (hd : direct s.word.val th.pc a = false)
    (hl : ∀ v, a ≠ .load v) (hc : ∀ v, a ≠ .casFail v) : AutoFutex.step s (t, a) = AutoFutex.step s (t, .casFail s.word.val) := by
  obtain ⟨pc, v⟩ := th
  cases a <;> first | exact absurd rfl (hl _) | exact absurd rfl (hc _) | skip
  all_goals cases pc <;> simp only [direct, Bool.or_eq_false_iff, Bool.not_eq_false', beq_eq_false_iff_ne, ne_eq, decide_eq_true_eq, reduceCtorEq] at hd
  all_goals simp only [AutoFutex.step, ht, hd, if_true, if_false, ite_self]

theorem sim (s : St) (l : Nat × AutoFutex.Act) (b : AutoFutex.St) (es : List AutoFutex.Ev) (F : Fits s) (h : AutoFutex.newest s.base l = some (b, es)) :
    ∃ l' s' es', step s l' = some (s', es') ∧ s'.base = b ∧ plain es' = es ∧ Fits s' := by
  obtain ⟨t, a⟩ := l
  have hb : AutoFutex.step s.base (t, a) = some (b, es) := by
    unfold AutoFutex.newest at h
    split at h
    · split at h
      · exact h
      · cases h
    · split at h
      · exact h
      · cases h
    · exact h
  obtain ⟨th, ht⟩ : ∃ th, s.base.ths[t]? = some th := by
    cases hn : s.base.ths[t]? with
    | none => simp only [AutoFutex.step, hn] at hb; cases hb
    | some th => exact ⟨th, rfl⟩
  obtain ⟨p, hp⟩ := get_of_len F.len ht
  have hlt : p < s.hist.length := F.lt p (List.mem_of_getElem? hp)
  have hi := last_idx F.last
  have old : ∀ {act : AutoFutex.Act} {l' : Act}, (act = .load s.base.word.val ∧ l' = .load (s.hist.length - 1) ∨
      act = .casFail s.base.word.val ∧ l' = .casFail (s.hist.length - 1)) → AutoFutex.step s.base (t, act) = some (b, es) →
      ∃ l' s' es', step s l' = some (s', es') ∧ s'.base = b ∧ plain es' = es ∧ Fits s' := by
    intro act l' hcase hst
    have hword : b.word = s.base.word := by
      rcases hcase with ⟨rfl, _⟩ | ⟨rfl, _⟩
      · obtain ⟨_, pc, rfl, _⟩ := load_shape ht (.inl hst); rfl
      · obtain ⟨_, pc, rfl, _⟩ := load_shape ht (.inr hst); rfl
    refine ⟨(t, l'), { s with base := b, pos := s.pos.set t (s.hist.length - 1) }, es.map .ev, ?_, rfl, plain_ev es,
      ⟨by rw [hword]; exact F.last, by rw [List.length_set, base_len hst]; exact F.len, set_lt F.lt (Nat.sub_lt (Nat.lt_of_le_of_lt (Nat.zero_le p) hlt) Nat.one_pos)⟩⟩
    rcases hcase with ⟨rfl, rfl⟩ | ⟨rfl, rfl⟩
    · simp only [step, ht, hp, hi, hst, if_pos (show p ≤ s.hist.length - 1 by omega)]
    · simp only [step, ht, hp, hi, hst, if_pos (show p ≤ s.hist.length - 1 by omega)]
  by_cases hd : direct s.base.word.val th.pc a = true
  · by_cases hw : b.word.val = s.base.word.val
    · exact ⟨(t, .op a), { s with base := b }, es.map .ev, by simp only [step, ht, hp, hd, hb, hw, if_true], rfl, plain_ev es,
        ⟨by rw [hw]; exact F.last, by rw [base_len hb]; exact F.len, F.lt⟩⟩
    · refine ⟨(t, .op a), ⟨b, s.hist ++ [b.word.val], s.pos.set t s.hist.length⟩, .changed t b.word.val :: es.map .ev,
        by simp only [step, ht, hp, hd, hb, hw, if_true, if_false], rfl, plain_changed _ _ es, ⟨by simp, by simp [base_len hb, F.len], ?_⟩⟩
      refine set_lt (fun q hq => ?_) (by simp)
      have := F.lt q hq
      simp; omega
  · have hd := Bool.eq_false_iff.mpr hd
    by_cases hl : ∃ v, a = .load v
    · obtain ⟨v, rfl⟩ := hl
      have hv : v = s.base.word.val := by
        unfold AutoFutex.newest at h
        simp only at h
        split at h
        · assumption
        · cases h
      subst hv
      exact old (.inl ⟨rfl, rfl⟩) hb
    · by_cases hc : ∃ v, a = .casFail v
      · obtain ⟨v, rfl⟩ := hc
        have hv : v = s.base.word.val := by
          unfold AutoFutex.newest at h
          simp only at h
          split at h
          · assumption
          · cases h
        subst hv
        exact old (.inr ⟨rfl, rfl⟩) hb
      · rw [not_direct ht hd (fun v e => hl ⟨v, e⟩) (fun v e => hc ⟨v, e⟩)] at hb
        exact old (.inr ⟨rfl, rfl⟩) hb

end AutoFutexOrder

namespace ManualFutexOrder

open ManualFutex (PC Th)

/-- What the simulation needs. -/
structure Fits (s : St) : Prop where
  last : s.hist.getLast? = some s.base.word
  len : s.pos.length = s.base.ths.length
  lt : ∀ p ∈ s.pos, p < s.hist.length

theorem fits_init (n : Nat) : Fits (init n) := ⟨rfl, by simp [init, ManualFutex.init], fun p h => by simp [init] at h; simp [init, h.2]⟩

theorem plain_app (a b : List Ev) : plain (a ++ b) = plain a ++ plain b := List.filterMap_append

/-- Only the read-modify-write operations change the word. -/
theorem word_eq {s b : ManualFutex.St} {t : Nat} {th : Th} {a : ManualFutex.Act} {es : List ManualFutex.Ev} (ht : s.ths[t]? = some th)
    (h : ManualFutex.step s (t, a) = some (b, es)) (hw : writes th.pc = false) : b.word = s.word := by
  obtain ⟨pc, v⟩ := th
  unfold ManualFutex.step at h
  simp only [ht] at h
  (repeat' split at h) <;> first | contradiction | (obtain ⟨rfl, rfl⟩ := Prod.mk.inj (Option.some.inj h); rfl) | (simp_all [writes]; done)

/-- A load of the newest value. -/
theorem load_last {s : St} {t p : Nat} {th : Th} {a : ManualFutex.Act} {b : ManualFutex.St} {es : List ManualFutex.Ev} (F : Fits s) (ht : s.base.ths[t]? = some th)
    (hp : s.pos[t]? = some p) (hd : direct th.pc a = false) (ha : ∀ v, a = .load v → v = s.base.word.val) (hb : ManualFutex.step s.base (t, a) = some (b, es)) :
    step s (t, .load (s.hist.length - 1)) = some ({ s with base := b, pos := s.pos.set t (s.hist.length - 1) }, es.map .ev) := by
  have hi := last_idx F.last
  have hlt : p < s.hist.length := F.lt p (List.mem_of_getElem? hp)
  have hle : p ≤ s.hist.length - 1 := by omega
  obtain ⟨pc, v⟩ := th
  simp only [step, ht, hp, hi, if_pos hle]
  cases a with
  | go =>
    cases pc <;> simp only [direct, Bool.true_eq_false] at hd
    simp only [ManualFutex.step, ht] at hb
    split at hb
    · next h1 => cases hb; simp [h1]
    · next h1 =>
      split at hb
      · next h2 => cases hb; simp [h1, h2]
      · next h2 => cases hb; simp [h1, h2]
  | load w =>
    cases ha w rfl
    cases pc <;> simp only [ManualFutex.step, ht, reduceCtorEq] at hb
    split at hb
    · next h1 =>
      split at hb
      · cases hb; simp [h1]
      · cases hb
    · next h1 => cases hb; simp [h1]
  | _ => cases pc <;> simp [direct] at hd

theorem sim (s : St) (l : Nat × ManualFutex.Act) (b : ManualFutex.St) (es : List ManualFutex.Ev) (F : Fits s) (h : ManualFutex.newest s.base l = some (b, es)) :
    ∃ l' s' es', step s l' = some (s', es') ∧ s'.base = b ∧ plain es' = es ∧ Fits s' := by
  obtain ⟨t, a⟩ := l
  have ⟨hb, ha⟩ : ManualFutex.step s.base (t, a) = some (b, es) ∧ ∀ v, a = .load v → v = s.base.word.val := by
    unfold ManualFutex.newest at h
    split at h
    · next v hv =>
      simp only at hv
      subst hv
      split at h
      · next hv => exact ⟨h, fun w e => by cases e; exact hv⟩
      · cases h
    · next hne => exact ⟨h, fun w e => absurd e (hne w)⟩
  obtain ⟨th, ht⟩ : ∃ th, s.base.ths[t]? = some th := by
    cases hn : s.base.ths[t]? with
    | none => simp only [ManualFutex.step, hn] at hb; cases hb
    | some th => exact ⟨th, rfl⟩
  obtain ⟨p, hp⟩ := get_of_len F.len ht
  have hlt : p < s.hist.length := F.lt p (List.mem_of_getElem? hp)
  by_cases hd : direct th.pc a = true
  · by_cases hw : writes th.pc = true
    · refine ⟨(t, .op a), ⟨b, s.hist ++ [b.word], s.pos.set t s.hist.length⟩, .changed t b.word.val :: es.map .ev,
        by simp only [step, ht, hp, hd, hb, hw, if_true], rfl, plain_changed _ _ es, ⟨by simp, by simp [base_len hb, F.len], ?_⟩⟩
      refine set_lt (fun q hq => ?_) (by simp)
      have := F.lt q hq
      simp; omega
    · refine ⟨(t, .op a), { s with base := b }, es.map .ev, by simp only [step, ht, hp, hd, hb, hw, if_true, Bool.false_eq_true, if_false], rfl, plain_ev es,
        ⟨by rw [word_eq ht hb (by simpa using hw)]; exact F.last, by rw [base_len hb]; exact F.len, F.lt⟩⟩
  · have hd := Bool.eq_false_iff.mpr hd
    have hw : writes th.pc = false := by
      obtain ⟨pc, v⟩ := th
      cases pc <;> cases a <;> first | rfl | (simp [direct] at hd; done) | (simp only [ManualFutex.step, ht] at hb; cases hb)
    exact ⟨_, _, _, load_last F ht hp hd ha hb, rfl, plain_ev es, ⟨by rw [word_eq ht hb hw]; exact F.last, by rw [List.length_set, base_len hb]; exact F.len,
      set_lt F.lt (Nat.sub_lt (Nat.lt_of_le_of_lt (Nat.zero_le p) hlt) Nat.one_pos)⟩⟩

end ManualFutexOrder

namespace AutoSemOrder

open Verif.Atomic (One)
open AutoSem (PC)

/-- What the simulation needs. -/
structure Fits (s : St) : Prop where
  last : s.hist.getLast? = some s.base.state
  len : s.views.length = s.base.ths.length
  lt : ∀ v ∈ s.views, v.pos < s.hist.length
  sem : s.semMsg.pos < s.hist.length

theorem fits_init (n : Nat) : Fits (init n) := ⟨rfl, by simp [init, AutoSem.init], fun v h => by simp [init] at h; simp [init, h.2], by simp [init]⟩

theorem base_len {s b : AutoSem.St} {l : Nat × AutoSem.Act} {es : List (Atomic.Ev One)} (h : AutoSem.step s l = some (b, es)) : b.ths.length = s.ths.length := by
  obtain ⟨t, a⟩ := l
  unfold AutoSem.step at h
  simp only at h
  (repeat' split at h) <;> first | contradiction | (obtain ⟨rfl, rfl⟩ := Prod.mk.inj (Option.some.inj h); simp; done)

/-- Where an action is not that of the plain model, it looks at the value. -/
theorem not_direct {s : St} {t : Nat} {pc : PC} {a : AutoSem.Act} {b : AutoSem.St} {es : List (Atomic.Ev One)} (ht : s.base.ths[t]? = some pc)
    (hd : direct s pc a = false) (hb : AutoSem.step s.base (t, a) = some (b, es)) :
    reads pc = true ∧ b = { s.base with ths := s.base.ths.set t (AutoSem.seen s.base.state) } ∧ es = [] := by
  cases pc <;> cases a <;> simp only [direct, Bool.true_eq_false, decide_eq_false_iff_not] at hd
  · simp only [AutoSem.step, ht] at hb; cases hb; exact ⟨rfl, rfl, rfl⟩
  · simp only [AutoSem.step, ht, if_neg hd] at hb; cases hb; exact ⟨rfl, rfl, rfl⟩
  · simp only [AutoSem.step, ht] at hb; cases hb; exact ⟨rfl, rfl, rfl⟩

theorem vset_lt {l : List V} {n t : Nat} {v : V} (h : ∀ p ∈ l, p.pos < n) (hi : v.pos < n) : ∀ p ∈ l.set t v, p.pos < n := by
  intro p hp
  rcases List.mem_or_eq_of_mem_set hp with hp | rfl
  · exact h p hp
  · exact hi

theorem rmw_fits {o : Order} {s : St} {t : Nat} {v : V} {b : AutoSem.St} (F : Fits s) (hl : b.ths.length = s.base.ths.length) :
    Fits { rmw o s t v b.state with base := b } := by
  refine ⟨by simp [rmw], by simp [rmw, hl, F.len], ?_, ?_⟩
  · simp only [rmw]
    refine vset_lt (fun p hp => ?_) (by simp)
    have := F.lt p hp
    simp; omega
  · have := F.sem
    simp [rmw]; omega

theorem semRmw_fits {o : Order} {s : St} {t : Nat} {v : V} {b : AutoSem.St} (F : Fits s) (hl : b.ths.length = s.base.ths.length) (hs : b.state = s.base.state)
    (hv : v.pos < s.hist.length) : Fits { semRmw o s t v with base := b } := by
  have hm := F.sem
  have hv' : (if o.isAcquire then v.join s.semMsg else v).pos < s.hist.length := by
    split
    · simp only [V.join]; omega
    · exact hv
  refine ⟨by simp only [semRmw]; rw [hs]; exact F.last, by simp [semRmw, hl, F.len], vset_lt F.lt hv', ?_⟩
  simp only [semRmw]
  split
  · generalize (if o.isAcquire then v.join s.semMsg else v) = v' at hv'
    simp only [V.join]; omega
  · exact hm

/-- The value is changed by the read-modify-write operations only. -/
theorem observe_fits {s : St} {t : Nat} {v : V} {pc : PC} {a : AutoSem.Act} {b : AutoSem.St} {es : List (Atomic.Ev One)} (F : Fits s)
    (ht : s.base.ths[t]? = some pc) (hv : v.pos < s.hist.length) (hb : AutoSem.step s.base (t, a) = some (b, es)) :
    Fits { (observe s t v pc b).1 with base := b } ∧ plain (observe s t v pc b).2 = [] := by
  have hl := base_len hb
  have still : b.state = s.base.state → Fits { s with base := b } := fun hs =>
    ⟨by simp only [hs]; exact F.last, by simp only [hl]; exact F.len, F.lt, F.sem⟩
  have key : (∀ k, pc ≠ .wAdd k) → (∀ k, pc ≠ .wSub k) → (∀ o, pc ≠ .pCas o) → b.state = s.base.state := by
    intro h1 h2 h3
    unfold AutoSem.step at hb
    simp only [ht] at hb
    (repeat' split at hb) <;> first | contradiction | exact absurd rfl (h1 _) | exact absurd rfl (h2 _) | exact absurd rfl (h3 _) |
      (obtain ⟨rfl, rfl⟩ := Prod.mk.inj (Option.some.inj hb); rfl)
  cases pc with
  | pCas o => exact ⟨rmw_fits F hl, rfl⟩
  | wAdd k => exact ⟨rmw_fits F hl, rfl⟩
  | wSub k => exact ⟨rmw_fits F hl, rfl⟩
  | pSem => exact ⟨semRmw_fits F hl (key nofun nofun nofun) hv, rfl⟩
  | wSem k =>
    unfold observe
    simp only
    split
    · exact ⟨semRmw_fits F hl (key nofun nofun nofun) hv, rfl⟩
    · exact ⟨still (key nofun nofun nofun), rfl⟩
  | _ => exact ⟨still (key nofun nofun nofun), rfl⟩

theorem sim (s : St) (l : Nat × AutoSem.Act) (b : AutoSem.St) (es : List (Atomic.Ev One)) (F : Fits s) (hb : AutoSem.step s.base l = some (b, es)) :
    ∃ l' s' es', step s l' = some (s', es') ∧ s'.base = b ∧ plain es' = es ∧ Fits s' := by
  obtain ⟨t, a⟩ := l
  obtain ⟨pc, ht⟩ : ∃ pc, s.base.ths[t]? = some pc := by
    cases hn : s.base.ths[t]? with
    | none => simp only [AutoSem.step, hn] at hb; cases hb
    | some th => exact ⟨th, rfl⟩
  obtain ⟨v, hv⟩ := get_of_len F.len ht
  have hlt : v.pos < s.hist.length := F.lt v (List.mem_of_getElem? hv)
  by_cases hd : direct s pc a = true
  · have ho := observe_fits F ht hlt hb
    exact ⟨(t, .op a), _, _, by simp only [step, ht, hv, hd, hb, if_true]; rfl, rfl, by rw [plain_append, plain_ev, ho.2, List.append_nil], ho.1⟩
  · obtain ⟨hr, rfl, rfl⟩ := not_direct ht (Bool.eq_false_iff.mpr hd) hb
    have hle : v.pos ≤ s.hist.length - 1 := by omega
    refine ⟨(t, .load (s.hist.length - 1)), _, _, by simp only [step, ht, hv, last_idx F.last, hr, hle, and_self, if_true]; rfl, rfl, ?_, ?_⟩
    · split <;> rfl
    · exact ⟨F.last, by simp [F.len], vset_lt F.lt (Nat.sub_lt (Nat.lt_of_le_of_lt (Nat.zero_le v.pos) hlt) Nat.one_pos), F.sem⟩

end AutoSemOrder

namespace MonitorOrder

open Verif.Monitor (Mon)

variable {D S : Type}

theorem base_len {M : Mon D S} {s b : Monitor.St D S} {l : Nat × Monitor.Act S} {es : List (Atomic.Ev S)} (h : Monitor.step M s l = some (b, es)) :
    b.ths.length = s.ths.length := by
  obtain ⟨t, a⟩ := l
  unfold Monitor.step at h
  simp only at h
  (repeat' split at h) <;> first | contradiction | (obtain ⟨rfl, rfl⟩ := Prod.mk.inj (Option.some.inj h); simp; done)

theorem plain_app (a b : List (Ev S)) : plain (a ++ b) = plain a ++ plain b := List.filterMap_append

theorem plain_evs (es : List (Atomic.Ev S)) : plain (es.map .ev) = es := by
  induction es with
  | nil => rfl
  | cons e es ih => simp only [plain, List.map_cons, List.filterMap_cons] at ih ⊢; rw [ih]

theorem plain_puts (t : Nat) (pc : Monitor.PC S) (es : List (Atomic.Ev S)) : plain (puts t pc ++ es.map .ev) = es := by
  rw [plain_app, plain_evs]
  cases pc <;> rfl

theorem sim (M : Mon D S) (s : St D S) (l : Nat × Monitor.Act S) (b : Monitor.St D S) (es : List (Atomic.Ev S)) (F : s.views.length = s.base.ths.length)
    (hb : Monitor.step M s.base l = some (b, es)) :
    ∃ l' s' es', step M s l' = some (s', es') ∧ s'.base = b ∧ plain es' = es ∧ s'.views.length = s'.base.ths.length := by
  obtain ⟨t, a⟩ := l
  obtain ⟨pc, ht⟩ : ∃ pc, s.base.ths[t]? = some pc := by
    cases hn : s.base.ths[t]? with
    | none => simp only [Monitor.step, hn] at hb; cases hb
    | some th => exact ⟨th, rfl⟩
  obtain ⟨v, hv⟩ := get_of_len F ht
  have hl := base_len hb
  cases ho : s.base.owner <;> cases hb' : b.owner
  all_goals
    refine ⟨(t, .op a), _, _, by simp only [step, ht, hv, hb, ho, hb']; rfl, rfl, plain_puts _ _ _, ?_⟩
    simp [hl, F]

end MonitorOrder

namespace WinCvOrder

/-- A load of the newest value is the action of the plain model. -/
theorem loaded_newest {s : WinCv.St} {t : Nat} {pc : WinCv.PC} {a : WinCv.Act} {b : WinCv.St} {es : List WinCv.Ev} (ht : s.ths[t]? = some pc)
    (hd : direct pc = false) (hb : WinCv.step s (t, a) = some (b, es)) : loaded s t pc s.total = some (b, es) := by
  cases pc <;> simp only [direct, Bool.true_eq_false] at hd
  all_goals cases a <;> simp only [WinCv.step, ht, reduceCtorEq] at hb
  all_goals rw [← hb]; rfl

theorem sim (n : Nat) (s : St) (l : Nat × WinCv.Act) (b : WinCv.St) (es : List WinCv.Ev) (R : Reachable step (init n) s) (hb : WinCv.step s.base l = some (b, es)) :
    ∃ l' s' es', step s l' = some (s', es') ∧ s'.base = b ∧ plain es' = es ∧ Reachable step (init n) s' := by
  obtain ⟨t, a⟩ := l
  obtain ⟨pc, ht⟩ : ∃ pc, s.base.ths[t]? = some pc := by
    cases hn : s.base.ths[t]? with
    | none => simp only [WinCv.step, hn] at hb; cases hb
    | some th => exact ⟨th, rfl⟩
  suffices ∃ l' s' es', step s l' = some (s', es') ∧ s'.base = b ∧ plain es' = es by
    obtain ⟨l', s', es', h1, h2, h3⟩ := this
    exact ⟨l', s', es', h1, h2, h3, R.snoc h1⟩
  by_cases hd : direct pc = true
  · exact ⟨(t, .op a), _, _, by simp only [step, ht, hd, hb, if_true]; rfl, rfl, plain_events⟩
  · obtain ⟨tr, h⟩ := R
    have I := inv_exec h
    have hlt := I.ok.newest.bound t
    have hle : s.know.of t ≤ s.know.hist.length - 1 := by omega
    have hl := loaded_newest ht (Bool.eq_false_iff.mpr hd) hb
    exact ⟨(t, .load (s.know.hist.length - 1)), _, _, by simp only [step, ht, last_idx I.last, if_pos hle, hl]; rfl, rfl, plain_events⟩

end WinCvOrder

end Verif
