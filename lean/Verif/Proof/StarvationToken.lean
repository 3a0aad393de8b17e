import Verif.Proof.StarvationMonitor

/-!
# The other emulations: `wait()` or `lock()` returns if the object stays ready, or if it is ready and nobody else succeeds any more
-/

namespace Verif.Monitor

open Verif.Atomic (Kind Op Ev)
open Verif.Spec.Endless
open Verif.Spec.Alone (get_set)

variable {D S : Type} {M : Mon D S} {avail : D → Nat}

theorem notAll_exec (A : Tokens M avail) {n : Nat} {tr : List (Ev S)} {s : St D S} (h : Exec (step M) (init M n) tr s) : NotAll s := by
  have : (Inv M s) ∧ Tok avail s ∧ NotAll s := by
    refine h.invariant' (fun s => Inv M s ∧ Tok avail s ∧ NotAll s) ⟨inv_init M n, ?_, ?_⟩ ?_
    · intro hs
      simp only [init] at hs
      rw [countP_replicate_false rfl] at hs
      omega
    · intro i x hx
      rw [get_replicate hx]; rfl
    · intro s l s' es ⟨I, T, N⟩ hs
      exact ⟨inv_step I hs, tok_step A I T N hs⟩
  exact this.2.2

/-- Awake, in a call that waits, tries or times out. -/
def up : PC S → Bool
  | .want _ | .inside _ | .woken _ _ | .expired | .taking _ _ | .leave (.acq _) _ => true
  | _ => false

variable {n : Nat} {st : Nat → St D S} {lbl : Nat → Nat × Act S} {ev : Nat → List (Ev S)}

/-- A thread that is awake takes a step if nobody is passed over for ever. -/
theorem moves (h : Endless (step M) (init M n) st lbl ev) (hs : Served (step M) Next st lbl) {j u : Nat} {pc : PC S}
    (hu : (st j).ths[u]? = some pc) (hp : up pc = true) : ∃ j', j ≤ j' ∧ (st j').ths[u]? = some pc ∧ (lbl j').1 = u := by
  have hkeep : ∀ i, j ≤ i → (st i).ths[u]? = some pc → (lbl i).1 ≠ u → (st (i + 1)).ths[u]? = some pc := fun i _ hq hne => by
    rcases other (h.next i) hne hq with e | ⟨k, to, rfl, _⟩
    · exact e
    · cases hp
  cases hh : pc.holding with
  | true => exact hs.scheduled.steps u j (fun i => (st i).ths[u]? = some pc) hu (fun i _ hq => holder_ready hq hh) hkeep
  | false =>
    refine Classical.byContradiction fun hno => ?_
    have hpc := from_on (p := fun i => (st i).ths[u]? = some pc) hu fun i hi hq => hkeep i hi hq fun e => hno ⟨i, hi, hq, e⟩
    obtain ⟨i, hi, e⟩ := hs u (fun i => by
      obtain ⟨i', hi', ho⟩ := released h hs.scheduled (max i j)
      refine ⟨i', by omega, ?_⟩
      have e := hpc i' (by omega)
      cases pc with
      | want k => exact ⟨.go, _, trivial, by simp only [step, e, ho, if_true]; rfl⟩
      | woken k b => exact ⟨.go, _, trivial, by simp only [step, e, ho, if_true]; rfl⟩
      | _ => first | (cases hp; done) | (cases hh; done)) j
    exact hno ⟨i, hi, hpc i hi, e⟩

theorem d_step {s s' : St D S} {u : Nat} {a : Act S} {es : List (Ev S)} (h : step M s (u, a) = some (s', es)) :
    s'.d = s.d ∨ (∃ k b, s.ths[u]? = some (.taking k b)) ∧ s'.d = M.take s.d ∨
      ∃ x, s'.d = M.put x s.d ∧ (M.notify x s.d = .nobody ∨ ∃ b, s'.ths[u]? = some (.notifying x b)) := by
  cases hu : s.ths[u]? with
  | none => simp [step, hu] at h
  | some pc =>
  cases pc
  all_goals try (rename_i b; cases b)
  all_goals cases a
  all_goals try (rename_i op; cases op)
  all_goals simp only [step, hu, reduceCtorEq] at h
  all_goals repeat' (split at h)
  all_goals first
    | contradiction
    | (simp only [reduceCtorEq] at h; done)
    | (obtain ⟨rfl, rfl⟩ := Prod.mk.inj (Option.some.inj h))
  all_goals first
    | exact .inl rfl
    | exact .inr (.inl ⟨⟨_, _, rfl⟩, rfl⟩)
    | exact .inr (.inr ⟨_, rfl, .inl ‹_›⟩)
    | exact .inr (.inr ⟨_, rfl, .inr ⟨_, get_set hu⟩⟩)

theorem sleep_step {s s' : St D S} {u : Nat} {a : Act S} {es : List (Ev S)} (N : NotAll s) (hr : M.ready s.d = true)
    (h : step M s (u, a) = some (s', es)) : s'.ths.countP PC.isAsleep ≤ s.ths.countP PC.isAsleep ∧
      ((∃ x b, s.ths[u]? = some (.notifying x b)) → 0 < s.ths.countP PC.isAsleep → s'.ths.countP PC.isAsleep < s.ths.countP PC.isAsleep) := by
  have one : ∀ {pc pc' : PC S}, s.ths[u]? = some pc → pc'.isAsleep = false → (∀ x, pc ≠ .notifying x false) → pc.other = false →
      (s.ths.set u pc').countP PC.isAsleep ≤ s.ths.countP PC.isAsleep ∧ ((∃ x b, s.ths[u]? = some (.notifying x b)) → 0 < s.ths.countP PC.isAsleep →
        (s.ths.set u pc').countP PC.isAsleep < s.ths.countP PC.isAsleep) := fun {pc pc'} e1 e2 e3 e4 => by
    have := countP_set (p := PC.isAsleep) (b := pc') e1
    rw [e2, b2n_false] at this
    refine ⟨by omega, ?_⟩
    rintro ⟨x, b, e⟩
    cases e1.symm.trans e
    cases b
    · exact absurd rfl (e3 x)
    · cases e4
  have two : ∀ {v : Nat} {k : Kind} {b : Bool} {x : S}, s.ths[v]? = some (.asleep k) → s.ths[u]? = some (.notifying x false) →
      ((s.ths.set v (.woken k b)).set u (.leave (.sig x) true)).countP PC.isAsleep < s.ths.countP PC.isAsleep := fun {v k b x} e1 e2 => by
    have hne : v ≠ u := by rintro rfl; rw [e1] at e2; cases e2
    have c1 := countP_set (p := PC.isAsleep) (b := .woken k b) e1
    have c2 := countP_set (p := PC.isAsleep) (l := s.ths.set v (.woken k b)) (i := u) (b := .leave (.sig x) true) (by rw [get_set_ne hne]; exact e2)
    simp only [PC.isAsleep, b2n_true, b2n_false] at c1 c2
    omega
  cases hu : s.ths[u]? with
  | none => simp [step, hu] at h
  | some pc =>
  have hN := N u pc hu
  rw [hu] at one
  cases pc
  all_goals try (rename_i b; cases b)
  all_goals try (cases hN; done)
  all_goals cases a
  all_goals try (rename_i op; cases op)
  all_goals simp only [step, hu, reduceCtorEq] at h
  all_goals repeat' (split at h)
  all_goals first
    | contradiction
    | (simp only [reduceCtorEq] at h; done)
    | (obtain ⟨rfl, rfl⟩ := Prod.mk.inj (Option.some.inj h))
  all_goals first
    | (refine one rfl rfl ?_ hN; intro _ e; cases e; done)
    | exact ⟨Nat.le_of_lt (two ‹_› hu), fun _ _ => two ‹_› hu⟩
    | skip
  have := countP_set (p := PC.isAsleep) (b := .leave (.sig ‹S›) true) hu
  simp only [PC.isAsleep, b2n_false] at this
  refine ⟨Nat.le_of_eq (by omega), fun _ hz => ?_⟩
  omega

private def tkRank : PC S → Nat
  | .woken _ _ => 6 | .expired => 5 | .inside _ => 4 | .taking _ _ => 3 | _ => 0

/-- A thread that is about to look at the object and finds it ready comes closer to taking it. -/
private theorem tk_step (hc : ∀ k, M.rewaits k = false) {s s' : St D S} {u : Nat} {a : Act S} {es : List (Ev S)} {pc : PC S} (N : NotAll s) (hr : M.ready s.d = true)
    (hu : s.ths[u]? = some pc) (hp : 3 < tkRank pc) (h : step M s (u, a) = some (s', es)) :
    ∃ pc', s'.ths[u]? = some pc' ∧ 3 ≤ tkRank pc' ∧ tkRank pc' < tkRank pc := by
  have hN := N u pc hu
  cases pc
  all_goals try (simp [tkRank] at hp; done)
  all_goals try (rename_i b; cases b)
  all_goals try (cases hN; done)
  all_goals cases a
  all_goals simp only [step, hu, reduceCtorEq, hc, hr, Bool.not_true, Bool.and_false, Bool.false_eq_true] at h
  all_goals repeat' (split at h)
  all_goals first
    | contradiction
    | (simp only [reduceCtorEq] at h; done)
    | (obtain ⟨rfl, rfl⟩ := Prod.mk.inj (Option.some.inj h))
  all_goals (refine ⟨_, get_set hu, ?_, ?_⟩ <;> simp [tkRank])

private theorem take_step {s s' : St D S} {u : Nat} {a : Act S} {es : List (Ev S)} {pc : PC S} (hu : s.ths[u]? = some pc) (hp : tkRank pc = 3)
    (h : step M s (u, a) = some (s', es)) : s'.d = M.take s.d := by
  cases pc <;> try (simp [tkRank] at hp; done)
  cases a <;> simp only [step, hu, reduceCtorEq] at h
  repeat' (split at h)
  all_goals first
    | contradiction
    | (simp only [reduceCtorEq] at h; done)
    | (obtain ⟨rfl, rfl⟩ := Prod.mk.inj (Option.some.inj h); rfl)

theorem ready_wait_ends (A : Tokens M avail) (h : Endless (step M) (init M n) st lbl ev) (hs : Served (step M) Next st lbl) {t i : Nat}
    (hi : InWait t (st i)) {k : Nat} (ready : ∀ j, k ≤ j → M.ready (st j).d = true) : ∃ j, i ≤ j ∧ WaitEnds t (ev j) := by
  refine Classical.byContradiction fun hno => ?_
  have nall : ∀ j, NotAll (st j) := fun j => (h.reachable j).elim fun _ e => notAll_exec A e
  have stay := from_on (p := fun j => InWait t (st j)) hi fun j hj hw => (step_in A.clock (h.next j) hw fun e => hno ⟨j, hj, e⟩).1
  -- the thread sleeps
  have awake : ∀ r j (pc : PC S), max i k ≤ j → (st j).ths[t]? = some pc → inWait pc = true → up pc = true → rank t (st j) = r → False := by
    intro r
    induction r using Nat.strongRecOn with
    | _ r ih =>
      intro j pc hj hu hw hp hr
      obtain ⟨j1, hj1, hq, hl⟩ := moves h hs hu hp
      have hst := h.next j1
      rw [show lbl j1 = (t, (lbl j1).2) by rw [← hl]] at hst
      have hstep := own_step A.clock hst ⟨pc, hq, hw⟩ fun e => hno ⟨j1, by omega, e⟩
      have hlt := hstep.2 (ready j1 (by omega))
      rw [rank_of hq, ← rank_of hu] at hlt
      obtain ⟨pc', e1, e2⟩ := hstep.1
      have hN := nall (j1 + 1) t pc' e1
      by_cases hup : up pc' = true
      · exact ih _ (by omega) (j1 + 1) pc' (by omega) e1 e2 hup rfl
      · have hle : rank t (st j) ≤ 4 := by
          rw [rank_of hu]
          cases pc <;> first | (cases hp; done) | (rename_i op b; cases op <;> simp [pcRank]; done) | simp [pcRank]
        rw [rank_of e1] at hlt
        cases pc' <;> first | (cases e2; done) | (cases hN; done) | exact absurd rfl hup | (simp [pcRank] at hlt; omega) | skip
        rename_i op b
        cases op
        · exact hup rfl
        · cases e2
  have sleeps : ∀ j, max i k ≤ j → 0 < (st j).ths.countP PC.isAsleep := fun j hj => by
    obtain ⟨pc, ht, hp⟩ := stay j (by omega)
    have hN := nall j t pc ht
    refine countP_pos_of_get ht ?_
    cases hup : up pc with
    | true => exact (awake _ j pc hj ht hp hup rfl).elim
    | false =>
      unfold inWait at hp
      split at hp
      all_goals first | rfl | (cases hp; done) | (cases hup; done) | (cases hN; done)
  -- nobody is woken any more
  obtain ⟨m, hm, hsl⟩ := settles (f := fun j => (st j).ths.countP PC.isAsleep) (i := max i k) fun j hj =>
    (sleep_step (nall j) (ready j (by omega)) (h.next j)).1
  have nonot : ∀ j (u : Nat) (x : S) (b : Bool), m ≤ j → (st j).ths[u]? ≠ some (.notifying x b) := fun j u x b hj hu => by
    obtain ⟨j', hj', hq, hl⟩ := hs.scheduled.steps u j (fun i => (st i).ths[u]? = some (.notifying x b)) hu
      (fun i _ hq => holder_ready hq rfl) (fun i _ hq hne => holder_kept h hq rfl hne)
    have hst := h.next j'
    rw [show lbl j' = (u, (lbl j').2) by rw [← hl]] at hst
    have e1 : (st (j' + 1)).ths.countP PC.isAsleep = _ := hsl (j' + 1) (by omega)
    have e2 : (st j').ths.countP PC.isAsleep = _ := hsl j' (by omega)
    have := (sleep_step (nall j') (ready j' (by omega)) hst).2 ⟨x, b, hq⟩ (sleeps j' (by omega))
    omega
  -- nothing is put any more, so nothing is taken any more
  have down : ∀ j, m ≤ j → avail (st (j + 1)).d ≤ avail (st j).d := fun j hj => by
    rcases d_step (h.next j) with e | ⟨_, e⟩ | ⟨x, e, hx⟩
    · rw [e]; exact Nat.le_refl _
    · have := A.take _ (ready j (by omega)); rw [e]; omega
    · rcases hx with hx | ⟨b, hx⟩
      · rw [e]; exact A.nobody x _ hx
      · exact (nonot (j + 1) _ x b (by omega) hx).elim
  obtain ⟨m', hm', hav⟩ := settles (f := fun j => avail (st j).d) (i := m) down
  have still : ∀ r j (u : Nat) (pc : PC S), m' ≤ j → (st j).ths[u]? = some pc → 3 ≤ tkRank pc → tkRank pc = r → False := by
    intro r
    induction r using Nat.strongRecOn with
    | _ r ih =>
      intro j u pc hj hu hp hr
      have hup : up pc = true := by cases pc <;> first | rfl | (simp [tkRank] at hp; done)
      obtain ⟨j1, hj1, hq, hl⟩ := moves h hs hu hup
      have hst := h.next j1
      rw [show lbl j1 = (u, (lbl j1).2) by rw [← hl]] at hst
      by_cases h3 : 3 < tkRank pc
      · obtain ⟨pc', e1, e2, e3⟩ := tk_step A.clock (nall j1) (ready j1 (by omega)) hq h3 hst
        exact ih _ (by omega) (j1 + 1) u pc' (by omega) e1 e2 rfl
      · have e := take_step hq (by omega) hst
        have e1 : avail (st (j1 + 1)).d = _ := hav (j1 + 1) (by omega)
        have e2 : avail (st j1).d = _ := hav j1 (by omega)
        have := A.take _ (ready j1 (by omega))
        rw [e] at e1
        omega
  have hT : Tok avail (st m') := (h.reachable m').elim fun _ e => tok_exec A e
  have h1 := hT (sleeps m' (by omega))
  have h2 := A.take _ (ready m' (by omega))
  obtain ⟨u, pc, hu, hp⟩ := exists_of_countP_pos (p := PC.active) (l := (st m').ths) (by omega)
  cases pc with
  | notifying x b => exact nonot m' u x b hm' hu
  | _ => first | (cases hp; done) | exact still _ m' u _ (Nat.le_refl _) hu (by simp [tkRank]) rfl

private theorem take_leave {s s' : St D S} {u : Nat} {a : Act S} {es : List (Ev S)} {k : Kind} {b : Bool} (hu : s.ths[u]? = some (.taking k b))
    (h : step M s (u, a) = some (s', es)) : s'.ths[u]? = some (.leave (.acq k) true) := by
  cases a <;> simp only [step, hu, reduceCtorEq] at h
  obtain ⟨rfl, rfl⟩ := Prod.mk.inj (Option.some.inj h)
  exact get_set hu

private theorem leave_ret {s s' : St D S} {u : Nat} {a : Act S} {es : List (Ev S)} {op : Op S} {b : Bool} (hu : s.ths[u]? = some (.leave op b))
    (h : step M s (u, a) = some (s', es)) : .ret u op b ∈ es := by
  cases a <;> simp only [step, hu, reduceCtorEq] at h
  obtain ⟨rfl, rfl⟩ := Prod.mk.inj (Option.some.inj h)
  exact List.mem_cons_self

theorem no_throw (hl : M.lockThrows = false) (hw : M.waitThrows .wait = false) {s s' : St D S} {u t : Nat} {a : Act S} {es : List (Ev S)}
    (h : step M s (u, a) = some (s', es)) : .threw t (.acq .wait) ∉ es := by
  intro he
  cases hu : s.ths[u]? with
  | none => simp [step, hu] at h
  | some pc =>
  cases pc
  all_goals try (rename_i b; cases b)
  all_goals cases a
  all_goals try (rename_i op; cases op)
  all_goals simp only [step, hu, reduceCtorEq, hl, hw, Bool.false_and, Bool.false_eq_true] at h
  all_goals repeat' (split at h)
  all_goals first
    | contradiction
    | (simp only [reduceCtorEq] at h; done)
    | (obtain ⟨rfl, rfl⟩ := Prod.mk.inj (Option.some.inj h); simp at he; done)
    | (obtain ⟨rfl, rfl⟩ := Prod.mk.inj (Option.some.inj h); simp at he; obtain ⟨rfl, rfl⟩ := he; simp_all; done)

theorem calm_wait_ends (A : Tokens M avail) (h : Endless (step M) (init M n) st lbl ev) (hs : Served (step M) Next st lbl) {t i : Nat}
    (hi : InWait t (st i)) {k : Nat} (hcalm : ∀ j, k ≤ j → ∀ u q, u ≠ t → .ret u (.acq q) true ∉ ev j)
    (hput : ∀ j, k ≤ j → ∀ x, M.ready (st j).d = true → M.ready (M.put x (st j).d) = true) {j₀ : Nat} (h1 : i ≤ j₀) (h2 : k ≤ j₀)
    (hr : M.ready (st j₀).d = true) : ∃ j, i ≤ j ∧ WaitEnds t (ev j) := by
  refine Classical.byContradiction fun hno => ?_
  have stay := from_on (p := fun j => InWait t (st j)) hi fun j hj hw => (step_in A.clock (h.next j) hw fun e => hno ⟨j, hj, e⟩).1
  refine hno (ready_wait_ends A h hs hi (k := j₀) (from_on (p := fun j => M.ready (st j).d = true) hr fun j hj e => ?_))
  rcases d_step (h.next j) with e' | ⟨⟨q, b, hu⟩, _⟩ | ⟨x, e', _⟩
  · rw [e']; exact e
  · have hl := take_leave hu (h.next j)
    obtain ⟨j', hj', hq, hlj⟩ := moves h hs hl rfl
    have hst := h.next j'
    rw [show lbl j' = ((lbl j).1, (lbl j').2) by rw [← hlj]] at hst
    have hret := leave_ret hq hst
    by_cases ht : (lbl j).1 = t
    · rw [ht] at hret hl
      obtain ⟨pc, e1, e2⟩ := stay (j + 1) (by omega)
      cases hl.symm.trans e1
      cases q <;> try (cases e2; done)
      exact (hno ⟨j', by omega, .inl ⟨_, hret⟩⟩).elim
    · exact (hcalm j' (by omega) _ q ht hret).elim
  · rw [e']; exact hput j (by omega) x e

end Verif.Monitor
