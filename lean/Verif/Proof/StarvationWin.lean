import Verif.Proof.Endless
import Verif.Proof.WinMutex
import Verif.Proof.WinMutexEffort
import Verif.Spec.Starvation

/-!
# The mutex of Windows: `lock()` returns if others stop to take the mutex
-/

namespace Verif.WinMutex

open Verif.Spec.Endless
open Verif.Spec.Effort (total_set)

/-- Has called a lock function and not yet `unlock()`. -/
def engaged (th : Th) : Bool :=
  match th.pc with
  | .idle | .unlAdd | .unlBts | .unlSet => false
  | _ => true

/-- The potential: as for C96, and each thread that will call `unlock()` pays for it in advance. -/
def debt (s : St) : Nat := Eff.pot s + (16 * s.ths.length + 20) * s.ths.countP engaged

theorem engaged_step {s s' : St} {t : Nat} {a : Act} {es : List Ev} (h : step s (t, a) = some (s', es)) (hc : ∀ k, a ≠ .call k) :
    s'.ths.countP engaged + (if a = .callUnlock then 1 else 0) ≤ s.ths.countP engaged := by
  have hset : ∀ {th th' : Th} {d : Nat}, s.ths[t]? = some th → b2n (engaged th') + d ≤ b2n (engaged th) →
      (s.ths.set t th').countP engaged + d ≤ s.ths.countP engaged := fun {th th' d} e1 e2 => by
    have := countP_set (p := engaged) (b := th') e1; omega
  unfold step at h
  simp only at h
  split at h
  · cases h
  next th hth =>
  obtain ⟨pc, view⟩ := th
  simp only at h
  split at h
  all_goals try simp only [Option.some.injEq, Prod.mk.injEq, reduceCtorEq] at h
  all_goals repeat' (split at h)
  all_goals try simp only [Option.some.injEq, Prod.mk.injEq, reduceCtorEq] at h
  all_goals obtain ⟨rfl, rfl⟩ := h
  all_goals first
    | exact absurd rfl (hc _)
    | (refine hset hth ?_; simp [engaged, b2n]; done)
    | (refine hset hth ?_; simp only [reduceCtorEq, if_false, engaged]; repeat' split
       all_goals simp_all [b2n])

theorem calm_step {s s' : St} {t : Nat} {a : Act} {es : List Ev} (h : step s (t, a) = some (s', es)) (hc : Calm s a) (hw : a ≠ .doWork) :
    debt s' < debt s := by
  have h1 := engaged_step h (by rintro k rfl; exact hc)
  have h2 := Eff.step_pays h
  unfold debt
  rw [h2.1]
  have hm := Nat.mul_le_mul_left (16 * s.ths.length + 20) h1
  rw [Nat.mul_add] at hm
  have h3 := h2.2
  cases a <;> first
    | exact absurd rfl hw
    | exact absurd hc id
    | (simp only [charged, Bool.false_eq_true, if_false, if_true, reduceCtorEq] at h3 hm; omega)
    | (rename_i v; have : v = s.word.val := hc; subst this; simp only [charged, bne_self_eq_false, Bool.false_eq_true, if_false, reduceCtorEq] at h3 hm; omega)

theorem work_step {s s' : St} {t : Nat} {es : List Ev} (h : step s (t, .doWork) = some (s', es)) :
    debt s' = debt s ∧ s'.word = s.word ∧ s'.ev = s.ev ∧ (∀ u : Nat, s'.ths[u]?.map Th.pc = s.ths[u]?.map Th.pc) ∧
      (s.ths[t]?.map Th.pc = some .idle ∨ s.ths[t]?.map Th.pc = some .owner) := by
  have key : ∀ {th : Th} {v : View}, s.ths[t]? = some th → (th.pc = .idle ∨ th.pc = .owner) →
      debt { s with ths := s.ths.set t { th with view := v }, fresh := s.fresh + 1 } = debt s ∧
      (∀ u : Nat, (s.ths.set t { th with view := v })[u]?.map Th.pc = s.ths[u]?.map Th.pc) ∧
      (s.ths[t]?.map Th.pc = some .idle ∨ s.ths[t]?.map Th.pc = some .owner) := by
    intro th v ht hp
    refine ⟨?_, fun u => ?_, by rw [ht]; exact hp.imp (fun e => by simp [e]) (fun e => by simp [e])⟩
    · have c1 := countP_set (p := engaged) (b := { th with view := v }) ht
      have e1 : engaged { th with view := v } = engaged th := rfl
      have c2 := total_set (w := Eff.weight s.word.val s.ths.length) (b := { th with view := v }) ht
      have e2 : Eff.weight s.word.val s.ths.length { th with view := v } = Eff.weight s.word.val s.ths.length th := rfl
      rw [e1] at c1
      have c1' : (s.ths.set t { th with view := v }).countP engaged = s.ths.countP engaged := by omega
      simp only [debt, Eff.pot, List.length_set, c1']
      omega
    · by_cases hu : t = u
      · subst hu; rw [get_set_self ht, ht]; rfl
      · rw [get_set_ne hu]
  cases ht : s.ths[t]? with
  | none => simp [step, ht] at h
  | some th =>
    obtain ⟨pc, v⟩ := th
    cases pc <;> simp only [step, ht, reduceCtorEq] at h
    · obtain ⟨rfl, rfl⟩ := Prod.mk.inj (Option.some.inj h)
      have := key (v := s.fresh :: v) ht (.inl rfl)
      exact ⟨this.1, rfl, rfl, this.2.1, .inl rfl⟩
    · obtain ⟨rfl, rfl⟩ := Prod.mk.inj (Option.some.inj h)
      have := key (v := s.fresh :: v) ht (.inr rfl)
      exact ⟨this.1, rfl, rfl, this.2.1, .inr rfl⟩

/-- Busy: neither outside, nor owner, nor asleep. -/
def busy : PC → Bool
  | .idle | .owner | .evWait _ _ => false
  | _ => true

theorem busy_ready {s : St} {t : Nat} {th : Th} (ht : s.ths[t]? = some th) (hb : busy th.pc = true ∨ (∃ k w, th.pc = .evWait k w) ∧ s.ev = true) :
    Ready step Next s t := by
  refine ⟨.go, ?_⟩
  obtain ⟨pc, v⟩ := th
  rcases hb with hb | ⟨⟨k, w, hp⟩, he⟩
  · cases pc <;> first
      | (cases hb; done)
      | (simp only [step, ht]; (repeat' split) <;> exact ⟨_, trivial, rfl⟩)
  · simp only at hp
    subst hp
    exact ⟨_, trivial, by simp only [step, ht, he, if_true]; rfl⟩

/-- Inside `lock()`, or about to throw from it. -/
def inside : PC → Bool
  | .tryBts .lock | .load .lock | .mark .lock _ | .evWait .lock _ | .clr .lock _ | .sub .lock true => true
  | _ => false

theorem inside_of {s : St} {t : Nat} (h : InLock t s) : ∃ pc, s.ths[t]?.map Th.pc = some pc ∧ inside pc = true := by
  obtain ⟨⟨pc, v⟩, ht, hp⟩ := h
  refine ⟨pc, by rw [ht]; rfl, ?_⟩
  simp only at hp
  rcases hp with rfl | rfl | ⟨w, rfl | rfl | rfl⟩ <;> rfl

theorem inside_cases {pc : PC} (h : inside pc = true) : pc = .tryBts .lock ∨ pc = .load .lock ∨ pc = .sub .lock true ∨
    ∃ w, pc = .mark .lock w ∨ pc = .evWait .lock w ∨ pc = .clr .lock w := by
  unfold inside at h
  split at h
  all_goals simp_all

/-- Steps of others do not move a thread. -/
theorem other {s s' : St} {u t : Nat} {a : Act} {es : List Ev} (h : step s (u, a) = some (s', es)) (hu : u ≠ t) :
    s'.ths[t]? = s.ths[t]? := by
  unfold step at h
  simp only at h
  split at h
  · cases h
  next th hth =>
  obtain ⟨pc, view⟩ := th
  simp only at h
  split at h
  all_goals try simp only [Option.some.injEq, Prod.mk.injEq, reduceCtorEq] at h
  all_goals repeat' (split at h)
  all_goals try simp only [Option.some.injEq, Prod.mk.injEq, reduceCtorEq] at h
  all_goals obtain ⟨rfl, rfl⟩ := h
  all_goals exact get_set_ne hu

/-- A call of `lock()` goes on until it returns or throws. -/
theorem stays_in {s s' : St} {u t : Nat} {a : Act} {es : List Ev} (h : step s (u, a) = some (s', es))
    (hi : ∃ pc, s.ths[t]?.map Th.pc = some pc ∧ inside pc = true)
    (he : ¬ ((∃ p, .acquired t .lock p ∈ es) ∨ .threw t .lock ∈ es)) : ∃ pc, s'.ths[t]?.map Th.pc = some pc ∧ inside pc = true := by
  by_cases hu : u = t
  · subst hu
    obtain ⟨pc, ht, hp⟩ := hi
    cases hth : s.ths[u]? with
    | none => rw [hth] at ht; cases ht
    | some th =>
    obtain ⟨pc', v⟩ := th
    rw [hth] at ht
    cases ht
    have key : ∀ {th' : Th}, inside th'.pc = true → ∃ pc, (s.ths.set u th')[u]?.map Th.pc = some pc ∧ inside pc = true :=
      fun {th'} e => ⟨_, by rw [get_set_self hth]; rfl, e⟩
    rcases inside_cases hp with rfl | rfl | rfl | ⟨w, rfl | rfl | rfl⟩ <;> cases a
    all_goals simp only [step, hth, reduceCtorEq] at h
    all_goals repeat' (split at h)
    all_goals first
      | contradiction
      | (simp only [reduceCtorEq] at h; done)
      | (obtain ⟨rfl, rfl⟩ := Prod.mk.inj (Option.some.inj h))
    all_goals first
      | exact key rfl
      | exact absurd (by simp) he
  · rw [other h hu]; exact hi

theorem lock_ends {n : Nat} (hn : n < 2 ^ 30) {st : Nat → St} {lbl : Nat → Nat × Act} {ev : Nat → List Ev} (h : Endless step (init n) st lbl ev)
    (hs : Scheduled step Next st lbl) {t i : Nat} (hi : InLock t (st i)) {k : Nat} (hcalm : ∀ j, k ≤ j → Calm (st j) (lbl j).2)
    (hfree : ∀ u : Nat, Often fun j => (st j).ths[u]?.map Th.pc ≠ some .owner) :
    ∃ j, i ≤ j ∧ ((∃ p, .acquired t .lock p ∈ ev j) ∨ .threw t .lock ∈ ev j) := by
  refine Classical.byContradiction fun hno => ?_
  have stay := from_on (p := fun j => ∃ pc, (st j).ths[t]?.map Th.pc = some pc ∧ inside pc = true) (inside_of hi)
    fun j hj hin => stays_in (h.next j) hin fun he => hno ⟨j, hj, he⟩
  have mono : ∀ j, max i k ≤ j → debt (st (j + 1)) ≤ debt (st j) := fun j hj => by
    by_cases hw : (lbl j).2 = .doWork
    · have hst := h.next j
      rw [show lbl j = ((lbl j).1, .doWork) by rw [← hw]] at hst
      exact Nat.le_of_eq (work_step hst).1
    · exact Nat.le_of_lt (calm_step (h.next j) (hcalm j (by omega)) hw)
  obtain ⟨m, hm, hconst⟩ := settles (f := fun j => debt (st j)) mono
  have work : ∀ j, m ≤ j → (lbl j).2 = .doWork := fun j hj => Classical.byContradiction fun hw => by
    have := calm_step (h.next j) (hcalm j (by omega)) hw
    have e1 := hconst j hj
    have e2 := hconst (j + 1) (by omega)
    omega
  have wstep : ∀ j, m ≤ j → step (st j) ((lbl j).1, .doWork) = some (st (j + 1), ev j) := fun j hj => by
    rw [← work j hj]; exact h.next j
  have frozen := from_on (p := fun j => (st j).word = (st m).word ∧ (st j).ev = (st m).ev ∧ ∀ u : Nat, (st j).ths[u]?.map Th.pc = (st m).ths[u]?.map Th.pc)
    (i := m) ⟨rfl, rfl, fun _ => rfl⟩ fun j hj ⟨e1, e2, e3⟩ => by
      obtain ⟨_, f1, f2, f3, _⟩ := work_step (wstep j hj)
      exact ⟨f1.trans e1, f2.trans e2, fun u => (f3 u).trans (e3 u)⟩
  have rest : ∀ (u : Nat) (pc : PC), (st m).ths[u]?.map Th.pc = some pc → ¬ (busy pc = true ∨ (∃ k w, pc = .evWait k w) ∧ (st m).ev = true) := by
    intro u pc hu hb
    obtain ⟨j, hj, _, hl⟩ := hs.steps u m (fun _ => True) trivial (fun j hj _ => by
      obtain ⟨_, e2, e3⟩ := frozen j hj
      have hu' := (e3 u).trans hu
      cases hth : (st j).ths[u]? with
      | none => rw [hth] at hu'; cases hu'
      | some th =>
        rw [hth] at hu'
        obtain rfl : th.pc = pc := Option.some.inj hu'
        exact busy_ready hth (by rw [e2]; exact hb)) (fun _ _ _ _ => trivial)
    have hp := (work_step (wstep j hj)).2.2.2.2
    rw [hl, (frozen j hj).2.2 u, hu] at hp
    rcases hp with hp | hp <;> cases hp <;> rcases hb with hb | ⟨⟨_, _, hb⟩, _⟩ <;> cases hb
  have noOwner : ∀ (u : Nat) , (st m).ths[u]?.map Th.pc ≠ some .owner := fun u hu => by
    obtain ⟨j, hj, hno⟩ := hfree u m
    exact hno (((frozen j hj).2.2 u).trans hu)
  have all : ∀ th ∈ (st m).ths, th.pc = .idle ∨ ∃ k w, th.pc = .evWait k w := fun th hth => by
    obtain ⟨u, hu⟩ := List.getElem?_of_mem hth
    have h1 := rest u th.pc (by rw [hu]; rfl)
    have h2 := noOwner u
    rw [hu] at h2
    obtain ⟨pc, v⟩ := th
    cases pc <;> first
      | exact .inl rfl
      | exact .inr ⟨_, _, rfl⟩
      | exact absurd rfl h2
      | exact absurd (.inl rfl) h1
  have zero : ∀ (p : Th → Bool), (∀ v, p ⟨.idle, v⟩ = false) → (∀ k w v, p ⟨.evWait k w, v⟩ = false) → (st m).ths.countP p = 0 := fun p p1 p2 => by
    rw [List.countP_eq_zero]
    rintro ⟨pc, v⟩ hth
    rcases all _ hth with e | ⟨k, w, e⟩ <;> simp only at e <;> subst e
    · simp [p1]
    · simp [p2]
  obtain ⟨pc, ht, hin⟩ := stay m (by omega)
  have hslept := rest t pc ht
  have hsleep : ∃ w, pc = .evWait .lock w := by
    rcases inside_cases hin with rfl | rfl | rfl | ⟨w, rfl | rfl | rfl⟩ <;> first
      | exact ⟨_, rfl⟩
      | exact absurd (.inl rfl) hslept
  obtain ⟨w, rfl⟩ := hsleep
  have hev : (st m).ev = false := Bool.eq_false_iff.mpr fun e => hslept (.inr ⟨⟨_, _, rfl⟩, e⟩)
  obtain ⟨tr, hr⟩ := h.reachable m
  have I := inv_exec hn hr
  have i1 := I.lock
  have i2 := I.cnt
  have i3 := I.flag
  rw [zero Th.owns (fun _ => rfl) (fun _ _ _ => rfl)] at i1
  rw [zero Th.setting (fun _ => rfl) (fun _ _ _ => rfl), zero Th.clearing (fun _ => rfl) (fun _ _ _ => rfl), hev, b2n_false] at i3
  have i4 : 1 ≤ (st m).ths.countP Th.blocked := by
    cases hth : (st m).ths[t]? with
    | none => rw [hth] at ht; cases ht
    | some th =>
      obtain ⟨pc, v⟩ := th
      rw [hth] at ht
      obtain rfl : pc = _ := Option.some.inj ht
      exact countP_pos_of_get hth rfl
  rcases I.wake i1 (by omega) with h1 | h1
  · omega
  · rw [zero Th.flagging (fun _ => rfl) (fun _ _ _ => rfl)] at h1; omega

end Verif.WinMutex
