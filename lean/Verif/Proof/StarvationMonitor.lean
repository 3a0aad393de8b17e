import Verif.Proof.Endless
import Verif.Proof.Held
import Verif.Proof.MonitorWake
import Verif.Spec.Starvation

/-!
# The emulation of `manual_reset_event`: `wait()` is not passed over for ever
-/

namespace Verif.Monitor

open Verif.Atomic (Kind Op Ev)
open Verif.Spec.Endless
open Verif.Spec.Alone (get_set)

variable {D S : Type} {M : Mon D S}

private theorem woken_other {ths : List (PC S)} {u v t : Nat} {y pc : PC S} {k : Kind} {to : Bool} (hne : u ≠ t) (ht : ths[t]? = some pc)
    (hv : ths[v]? = some (.asleep k)) (hk : k ≠ .timed → to = false) : ((ths.set v (.woken k to)).set u y)[t]? = some pc ∨
      ∃ k' to', pc = .asleep k' ∧ ((ths.set v (.woken k to)).set u y)[t]? = some (.woken k' to') ∧ (k' ≠ .timed → to' = false) := by
  by_cases hvt : v = t
  · subst hvt
    cases ht.symm.trans hv
    exact .inr ⟨_, _, rfl, by rw [get_set_ne hne]; exact get_set ht, hk⟩
  · exact .inl (by simp only [get_set_ne hne, get_set_ne hvt, ht])

/-- Other threads leave a thread alone, or wake it. -/
theorem other {s s' : St D S} {u t : Nat} {a : Act S} {es : List (Ev S)} {pc : PC S} (h : step M s (u, a) = some (s', es)) (hne : u ≠ t)
    (ht : s.ths[t]? = some pc) : s'.ths[t]? = some pc ∨ ∃ k to, pc = .asleep k ∧ s'.ths[t]? = some (.woken k to) ∧ (k ≠ .timed → to = false) := by
  cases hu : s.ths[u]? with
  | none => simp [step, hu] at h
  | some x =>
    cases x
    all_goals try (rename_i b; cases b)
    all_goals cases a
    all_goals simp only [step, hu, reduceCtorEq] at h
    all_goals repeat' (split at h)
    all_goals first
      | contradiction
      | (simp only [reduceCtorEq] at h; done)
      | (obtain ⟨rfl, rfl⟩ := Prod.mk.inj (Option.some.inj h))
    all_goals first
      | (refine .inl ?_; simp only [get_set_ne hne, ht]; done)
      | (refine woken_other (k := .timed) hne ht ?_ (fun h => absurd rfl h); assumption)
      | (rename_i hv _; exact woken_other hne ht hv (fun _ => rfl))
      | (rename_i hv; exact woken_other hne ht hv (fun _ => rfl))
      | (simp only [List.getElem?_map, get_set_ne hne, ht, Option.map_some]
         cases pc <;> first | exact .inl rfl | exact .inr ⟨_, _, rfl, rfl, fun _ => rfl⟩)

/-- How far `wait()` is from its return. -/
def pcRank : PC S → Nat
  | .early _ => 6
  | .asleep _ => 5
  | .want _ | .woken _ _ => 4
  | .inside _ => 3
  | .taking _ _ => 2
  | _ => 1

def rank (t : Nat) (s : St D S) : Nat := match s.ths[t]? with | some pc => pcRank pc | none => 0

theorem rank_of {t : Nat} {s : St D S} {pc : PC S} (h : s.ths[t]? = some pc) : rank t s = pcRank pc := by simp only [rank, h]

/-- The thread's own steps. -/
theorem own_step (hc : ∀ k, M.rewaits k = false) {s s' : St D S} {t : Nat} {a : Act S} {es : List (Ev S)} (h : step M s (t, a) = some (s', es))
    (hi : InWait t s) (h1 : ¬ WaitEnds t es) : InWait t s' ∧ (M.ready s.d = true → rank t s' < rank t s) := by
  obtain ⟨pc, ht, hp⟩ := hi
  have done : ∀ {s'' : St D S} {pc' : PC S}, s''.ths[t]? = some pc' → inWait pc' = true → pcRank pc' < pcRank pc →
      InWait t s'' ∧ (M.ready s.d = true → rank t s'' < rank t s) := fun e1 e2 e3 => ⟨⟨_, e1, e2⟩, fun _ => by rw [rank_of e1, rank_of ht]; exact e3⟩
  have done' : ∀ {s'' : St D S} {pc' : PC S}, s''.ths[t]? = some pc' → inWait pc' = true → ¬ M.ready s.d = true →
      InWait t s'' ∧ (M.ready s.d = true → rank t s'' < rank t s) := fun e1 e2 e3 => ⟨⟨_, e1, e2⟩, fun hr => absurd hr e3⟩
  cases pc <;> try (cases hp; done)
  all_goals rename_i b; cases b
  all_goals try (cases hp; done)
  all_goals try (rename_i b; cases b)
  all_goals try (cases hp; done)
  all_goals try (rename_i b; cases b)
  all_goals try (cases hp; done)
  all_goals cases a
  all_goals simp only [step, ht, reduceCtorEq, hc] at h
  all_goals repeat' (split at h)
  all_goals first
    | contradiction
    | (simp only [reduceCtorEq] at h; done)
    | (obtain ⟨rfl, rfl⟩ := Prod.mk.inj (Option.some.inj h))
  all_goals first
    | exact absurd (.inl ⟨_, List.mem_cons_self⟩) h1
    | exact absurd (.inr List.mem_cons_self) h1
    | exact done (get_set ht) rfl (of_decide_eq_true rfl)
    | exact done' (get_set ht) rfl ‹_›

theorem step_in (hc : ∀ k, M.rewaits k = false) {s s' : St D S} {u t : Nat} {a : Act S} {es : List (Ev S)} (h : step M s (u, a) = some (s', es))
    (hi : InWait t s) (h1 : ¬ WaitEnds t es) : InWait t s' ∧ (M.ready s.d = true → rank t s' ≤ rank t s) := by
  by_cases hu : u = t
  · subst hu
    exact ⟨(own_step hc h hi h1).1, fun hr => Nat.le_of_lt ((own_step hc h hi h1).2 hr)⟩
  · obtain ⟨pc, ht, hp⟩ := hi
    rcases other h hu ht with e | ⟨k, to, rfl, e, hk⟩
    · exact ⟨⟨_, e, hp⟩, fun _ => by rw [rank_of e, rank_of ht]; exact Nat.le_refl _⟩
    · cases k <;> try (cases hp; done)
      cases hk (by decide)
      exact ⟨⟨_, e, rfl⟩, fun _ => by rw [rank_of e, rank_of ht]; exact of_decide_eq_true rfl⟩

/-- The owner of the mutex has a next step. -/
theorem holder_ready {s : St D S} {u : Nat} {pc : PC S} (hu : s.ths[u]? = some pc) (hh : pc.holding = true) :
    Ready (step M) Next s u := by
  by_cases hn : ∃ x, pc = .notifying x false
  · obtain ⟨x, rfl⟩ := hn
    by_cases hz : s.ths.countP PC.isAsleep = 0
    · exact ⟨.go, _, trivial, by simp only [step, hu, hz, if_true]; rfl⟩
    · obtain ⟨v, pc, hv, hp⟩ := exists_of_countP_pos (Nat.pos_of_ne_zero hz)
      cases pc <;> try (cases hp; done)
      rename_i k
      refine ⟨.wake v false, ?_⟩
      cases k <;> exact ⟨_, trivial, by simp only [step, hu, hv]; rfl⟩
  refine ⟨.go, ?_⟩
  cases pc with
  | notifying x all =>
    cases all
    · exact absurd ⟨x, rfl⟩ hn
    · exact ⟨_, trivial, by simp only [step, hu]; rfl⟩
  | inside k => simp only [step, hu]; cases k <;> split <;> exact ⟨_, trivial, rfl⟩
  | idle => cases hh
  | asleep k => cases hh
  | want k => cases hh
  | wantSig x => cases hh
  | woken k b => cases hh
  | _ => simp only [step, hu]; (repeat' split) <;> exact ⟨_, trivial, rfl⟩

/-- The steps of the owner lead to the release of the mutex. -/
theorem holder_step {s s' : St D S} {u : Nat} {pc : PC S} {a : Act S} {es : List (Ev S)} (hu : s.ths[u]? = some pc) (hh : pc.holding = true)
    (hs : step M s (u, a) = some (s', es)) :
    s'.owner = none ∨ ∃ pc' : PC S, s'.ths[u]? = some pc' ∧ pc'.holding = true ∧ Hd.left pc' < Hd.left pc := by
  have done : ∀ {s'' : St D S} {pc' : PC S}, s''.ths[u]? = some pc' → pc'.holding = true → Hd.left pc' < Hd.left pc →
      s''.owner = none ∨ ∃ pc' : PC S, s''.ths[u]? = some pc' ∧ pc'.holding = true ∧ Hd.left pc' < Hd.left pc :=
    fun e1 e2 e3 => .inr ⟨_, e1, e2, e3⟩
  cases pc
  all_goals try (rename_i b; cases b)
  all_goals simp only [PC.holding, Bool.false_eq_true] at hh
  all_goals cases a
  all_goals simp only [step, hu, reduceCtorEq] at hs
  all_goals repeat' (split at hs)
  all_goals first
    | contradiction
    | (simp only [reduceCtorEq] at hs; done)
    | (obtain ⟨rfl, rfl⟩ := Prod.mk.inj (Option.some.inj hs))
  all_goals first
    | exact .inl rfl
    | exact done (get_set hu) rfl (of_decide_eq_true rfl)
    | exact done (Hd.get_set2 hu) rfl (of_decide_eq_true rfl)
    | (rename_i x; refine done (pc' := .leave (.sig x) true) ?_ rfl (of_decide_eq_true rfl); simp only [List.getElem?_map, get_set hu]; rfl)

variable {n : Nat} {st : Nat → St D S} {lbl : Nat → Nat × Act S} {ev : Nat → List (Ev S)}

theorem inv_at (h : Endless (step M) (init M n) st lbl ev) (j : Nat) : Inv M (st j) := (h.reachable j).elim fun _ e => inv_exec e

theorem bro_at (A : Broadcast M) (h : Endless (step M) (init M n) st lbl ev) (j : Nat) : Bro M (st j) :=
  (h.reachable j).elim fun _ e => bro_exec A e

/-- Others leave the owner and its place alone. -/
theorem holder_kept {j u : Nat} {pc : PC S} (h : Endless (step M) (init M n) st lbl ev) (hu : (st j).ths[u]? = some pc) (hh : pc.holding = true)
    (hne : (lbl j).1 ≠ u) : (st (j + 1)).ths[u]? = some pc := by
  rcases other (h.next j) hne hu with e | ⟨k, to, rfl, _⟩
  · exact e
  · cases hh

theorem released (h : Endless (step M) (init M n) st lbl ev) (hf : Scheduled (step M) Next st lbl) :
    Often fun j => (st j).owner = none := by
  intro i
  refine hf.lead (fun j => match (st j).owner with | some u => Hd.left (Hd.pcOf (st j) u) | none => 0) (fun j u => (st j).owner = some u)
    (fun j => (st j).owner = none) i ?_ ?_ ?_ ?_
  · intro j _ hg
    cases ho : (st j).owner with
    | none => exact absurd ho hg
    | some u => exact ⟨u, rfl⟩
  · intro j u _ _ ho
    obtain ⟨pc, hu⟩ := (inv_at h j).owner u ho
    exact holder_ready hu (((inv_at h j).own u pc hu).2 ho)
  · intro j u _ _ ho hl
    obtain ⟨pc, hu⟩ := (inv_at h j).owner u ho
    have hh := ((inv_at h j).own u pc hu).2 ho
    have hs := h.next j
    rw [show lbl j = (u, (lbl j).2) by rw [← hl]] at hs
    simp only [ho, Hd.pcOf, hu, Option.getD_some]
    rcases holder_step hu hh hs with e | ⟨pc', e, hh', hlt⟩
    · simp only [e]; cases pc <;> simp [Hd.left, PC.holding] at hh ⊢
    · simp only [((inv_at h (j + 1)).own u pc' e).1 hh', e, Option.getD_some, hlt]
  · intro j u _ _ ho hl
    obtain ⟨pc, hu⟩ := (inv_at h j).owner u ho
    have hh := ((inv_at h j).own u pc hu).2 ho
    have e := holder_kept h hu hh hl
    have ho' := ((inv_at h (j + 1)).own u pc e).1 hh
    refine .inr ⟨?_, ho'⟩
    simp only [ho, ho', Hd.pcOf, e, hu]

theorem wait_ends (A : Broadcast M) (h : Endless (step M) (init M n) st lbl ev) (hs : Served (step M) Next st lbl) {t i : Nat}
    (hi : InWait t (st i)) {k : Nat} (hset : ∀ j, k ≤ j → M.ready (st j).d = true) : ∃ j, i ≤ j ∧ WaitEnds t (ev j) := by
  refine Classical.byContradiction fun hn => ?_
  have hne : ∀ j, i ≤ j → ¬ WaitEnds t (ev j) := fun j hj e => hn ⟨j, hj, e⟩
  have hf := hs.scheduled
  have hin : ∀ j, i ≤ j → InWait t (st j) := from_on (p := fun j => InWait t (st j)) hi fun j hj hw => (step_in A.clock (h.next j) hw (hne j hj)).1
  obtain ⟨m, hm, hc⟩ := settles (f := fun j => rank t (st j)) (i := max i k) fun j hj =>
    (step_in A.clock (h.next j) (hin j (by omega)) (hne j (by omega))).2 (hset j (by omega))
  -- from `m` on the thread takes no step
  have still : ∀ j, m ≤ j → (lbl j).1 ≠ t := fun j hj hl => by
    have hs := h.next j
    rw [show lbl j = (t, (lbl j).2) by rw [← hl]] at hs
    have := (own_step A.clock hs (hin j (by omega)) (hne j (by omega))).2 (hset j (by omega))
    have e1 := hc j hj
    have e2 := hc (j + 1) (by omega)
    omega
  obtain ⟨pc, ht, hp⟩ := hin m (by omega)
  have hpc : ∀ j, m ≤ j → (st j).ths[t]? = some pc := from_on (p := fun j => (st j).ths[t]? = some pc) ht fun j hj e => by
    rcases other (h.next j) (still j hj) e with e' | ⟨k', to, rfl, e', _⟩
    · exact e'
    · have e1 := hc j hj
      have e2 := hc (j + 1) (by omega)
      simp only [rank_of e', rank_of e, pcRank] at e1 e2
      omega
  have served : (Often fun j => Ready (step M) Next (st j) t) → False := fun ho => by
    obtain ⟨j, hj, e⟩ := hs t ho m
    exact still j hj e
  cases hh : pc.holding with
  | true =>
    refine served fun j => ⟨max j m, by omega, ?_⟩
    have e := hpc (max j m) (by omega)
    exact holder_ready e hh
  | false =>
    have free : (∀ s : St D S, s.ths[t]? = some pc → s.owner = none → Ready (step M) Next s t) → False := fun hr =>
      served fun j => by
        obtain ⟨j', hj, e⟩ := released h hf (max j m)
        exact ⟨j', by omega, hr _ (hpc j' (by omega)) e⟩
    cases pc with
    | want k => exact free fun s e ho => ⟨.go, _, trivial, by simp only [step, e, ho, if_true]; rfl⟩
    | woken k b => exact free fun s e ho => ⟨.go, _, trivial, by simp only [step, e, ho, if_true]; rfl⟩
    | asleep k =>
      obtain ⟨u, pc', hu, hnt⟩ := exists_of_countP_pos ((bro_at A h m).1 (hset m (by omega)) (countP_pos_of_get (p := PC.isAsleep) ht rfl))
      cases pc' with
      | notifying x all =>
        cases all
        · have := (bro_at A h m).2 u _ hu; cases this
        · obtain ⟨j, hj, hq, hl⟩ := hf.steps u m (fun j => (st j).ths[u]? = some (.notifying x true)) hu
            (fun j hj e => holder_ready e rfl) (fun j hj e hne => holder_kept h e rfl hne)
          have hst := h.next j
          rw [show lbl j = (u, (lbl j).2) by rw [← hl]] at hst
          have hut : u ≠ t := fun e => still j hj (hl.trans e)
          have e := hpc (j + 1) (by omega)
          have e0 := hpc j hj
          generalize (lbl j).2 = a at hst
          cases a
          all_goals simp only [step, hq, reduceCtorEq, Option.some.injEq, Prod.mk.injEq] at hst
          rw [← hst.1] at e
          simp only [List.getElem?_map, get_set_ne hut, e0, Option.map_some, PC.wakeUp, reduceCtorEq, Option.some.injEq] at e
      | _ => cases hnt
    | _ => first | (cases hp; done) | (cases hh; done)

end Verif.Monitor
