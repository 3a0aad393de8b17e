import Verif.Proof.OnceEnds

/-! C116: calls that may have to wait for an initialisation come to an end under a fair scheduler. -/

open Verif.Spec.Endless

namespace Verif.TssOnce

/-- **C116** (`init_tss_once`): in every execution without end in which the scheduler does not forget a thread, every call comes to an end and its
caller goes on to use the manager. -/
theorem C116_call_ends (n : Nat) (st : Nat → St) (lbl : Nat → Nat × Act) (ev : Nat → List Ev) (h : Endless step (init n) st lbl ev)
    (hs : Scheduled step Next st lbl) (t i : Nat) (hi : lbl i = (t, .call)) : ∃ j, i < j ∧ ∃ p, .proceeded t p ∈ ev j := by
  have hst := h.next i
  rw [hi] at hst
  obtain ⟨_, pc, ht, hl⟩ := step_lstep hst
  have h1 : (st (i + 1)).ths[t]? = some .load := by
    have hidle : pc = .idle := by
      simp only [step, not_aborted h i, ht] at hst
      cases pc <;> simp at hst; rfl
    subst hidle
    revert hl; generalize st (i + 1) = s', ev i = es; intro hl
    cases hl; exact get_set_self ht
  obtain ⟨j, hj, h2, pc', hq, hp⟩ := flag_set h hs h1 (by decide)
  obtain ⟨k, hk, r⟩ := from_two h hs hq hp h2
  exact ⟨k, by omega, r⟩

/-- **C116** (`init_tss_once`): an initialisation that begins is completed, by the thread that began it. -/
theorem C116_init_ends (n : Nat) (st : Nat → St) (lbl : Nat → Nat × Act) (ev : Nat → List Ev) (h : Endless step (init n) st lbl ev)
    (hs : Scheduled step Next st lbl) (t i : Nat) (hi : .began t ∈ ev i) : ∃ j, i < j ∧ ∃ p, .done t p ∈ ev j := by
  obtain ⟨_, pc, ht, hl⟩ := step_lstep (t := (lbl i).1) (a := (lbl i).2) (h.next i)
  have h1 : (st (i + 1)).ths[t]? = some .construct := by
    revert hl hi; generalize st (i + 1) = s', ev i = es; intro hi hl
    cases hl <;> simp at hi
    subst hi
    exact get_set_self ht
  obtain ⟨j, hj, _, _, r⟩ := from_crit h hs h1 rfl
  exact ⟨j, by omega, r⟩

/-- The hypotheses can be met: thread 1 calls while thread 0 initialises; afterwards thread 0 calls again and again. -/
example : ∃ st lbl ev, Endless step (init 2) st lbl ev ∧ Scheduled step Next st lbl ∧ lbl 0 = (1, .call) ∧ (st 0).flag = 1 := by
  obtain ⟨st, lbl, ev, h1, h2, h3, h4⟩ := endless_of_rounds (step := step) (good := fun s l _ => s.flag = 1 ∧ s.ths = [.construct, .idle] → l = (1, .call))
    (P := fun s => s = ⟨1, 0, false, [.construct, .idle]⟩ ∨ s = ⟨2, 1, false, [.idle, .idle]⟩) (R := fun (u : Fin 2) l _ => l.1 = u.1)
    (s₀ := init 2) (s := ⟨1, 0, false, [.construct, .idle]⟩) 0 (by
      rintro s (rfl | rfl)
      · refine ⟨[((1, .call), []), ((1, .go), []), ((1, .go), []), ((0, .addr 1), []), ((0, .go), []), ((1, .go), []), ((0, .go), [.done 0 1]), ((0, .go), [.proceeded 0 1]),
          ((1, .go), []), ((1, .go), [.proceeded 1 1])], ?_⟩
        apply Exists.intro
        refine ⟨?_, .inr rfl, fun u => ?_⟩
        · iterate 10 refine ⟨_, by with_unfolding_all rfl, by decide, ?_⟩
          exact rfl
        · match u with
          | ⟨0, _⟩ => exact ⟨((0, .go), []), by decide, rfl⟩
          | ⟨1, _⟩ => exact ⟨((1, .go), []), by decide, rfl⟩
      · refine ⟨[((1, .call), []), ((1, .go), []), ((1, .go), [.proceeded 1 1]), ((0, .call), []), ((0, .go), []), ((0, .go), [.proceeded 0 1])], ?_⟩
        apply Exists.intro
        refine ⟨?_, .inr rfl, fun u => ?_⟩
        · iterate 6 refine ⟨_, by with_unfolding_all rfl, by decide, ?_⟩
          exact rfl
        · match u with
          | ⟨0, _⟩ => exact ⟨((0, .go), []), by decide, rfl⟩
          | ⟨1, _⟩ => exact ⟨((1, .go), []), by decide, rfl⟩)
    ⟨_, exec_of_run (r := (_, _)) (ls := [(0, .call), (0, .go), (0, .go)]) rfl⟩ (.inl rfl)
  refine ⟨st, lbl, ev, h1, fun u i => ?_, ?_, by rw [h2]⟩
  · rcases Nat.lt_or_ge u 2 with hu | hu
    · obtain ⟨j, hj, e⟩ := h4 ⟨u, hu⟩ i
      exact ⟨j, hj, .inl e⟩
    · refine ⟨i, Nat.le_refl _, .inr ?_⟩
      rintro ⟨a, r, _, hst⟩
      have hlen : (st i).ths.length = 2 := by
        obtain ⟨tr, hex⟩ := h1.reachable i
        refine hex.invariant' (fun s => s.ths.length = 2) (by simp [init]) fun s l s' es hl hst => ?_
        obtain ⟨_, pc, _, hl'⟩ := step_lstep (t := l.1) (a := l.2) hst
        cases hl' <;> simpa using hl
      obtain ⟨_, pc, ht, _⟩ := step_lstep (s' := r.1) (es := r.2) hst
      rw [List.getElem?_eq_none (by omega)] at ht; cases ht
  · exact h3 0 (by rw [h2]; decide)

end Verif.TssOnce

namespace Verif.WinGetEvent

/-- **C116** (`get_event` of the Windows mutex): in every execution without end in which the scheduler does not forget a thread, every call returns an
event or throws. -/
theorem C116_call_ends (n : Nat) (st : Nat → St) (lbl : Nat → Nat × Act) (ev : Nat → List Ev) (h : Endless step (init n) st lbl ev)
    (hs : Scheduled step Next st lbl) (t i : Nat) (hi : lbl i = (t, .call)) : ∃ j, i < j ∧ ((∃ e, .returned t e ∈ ev j) ∨ .threw t ∈ ev j) := by
  have hst := h.next i
  rw [hi] at hst
  have h1 : (st (i + 1)).ths[t]? = some .load := by
    revert hst; generalize st (i + 1) = s', ev i = es; intro hst
    simp only [step] at hst
    split at hst
    · cases hst
    next pc ht =>
      cases pc <;> simp at hst
      obtain ⟨rfl, _⟩ := hst
      exact get_set_self ht
  obtain ⟨j, hj, r⟩ := call_ends h hs _ (i + 1) .load (Nat.le_refl _) h1 (by decide)
  exact ⟨j, by omega, r⟩

/-- The hypotheses can be met: two threads create an event each, one of them is closed again; afterwards both call again and again. -/
example : ∃ st lbl ev, Endless step (init 2) st lbl ev ∧ Scheduled step Next st lbl ∧ lbl 0 = (1, .call) ∧ (st 0).event = 0 := by
  obtain ⟨st, lbl, ev, h1, h2, h3, h4⟩ := endless_of_rounds (step := step) (good := fun s l _ => s.ths = [.create, .idle] → l = (1, .call))
    (P := fun s => s = ⟨0, [], [.create, .idle]⟩ ∨ s = ⟨7, [7], [.idle, .idle]⟩) (R := fun (u : Fin 2) l _ => l.1 = u.1)
    (s₀ := init 2) (s := ⟨0, [], [.create, .idle]⟩) 0 (by
      rintro s (rfl | rfl)
      · refine ⟨[((1, .call), []), ((1, .go), []), ((1, .create 7), [.created 1 7]), ((0, .create 5), [.created 0 5]), ((1, .go), [.returned 1 7]), ((0, .go), []),
          ((0, .go), [.closed 0 5, .returned 0 7])], ?_⟩
        apply Exists.intro
        refine ⟨?_, .inr rfl, fun u => ?_⟩
        · iterate 7 refine ⟨_, by with_unfolding_all rfl, by decide, ?_⟩
          exact rfl
        · match u with
          | ⟨0, _⟩ => exact ⟨((0, .go), []), by decide, rfl⟩
          | ⟨1, _⟩ => exact ⟨((1, .go), []), by decide, rfl⟩
      · refine ⟨[((1, .call), []), ((1, .go), [.returned 1 7]), ((0, .call), []), ((0, .go), [.returned 0 7])], ?_⟩
        apply Exists.intro
        refine ⟨?_, .inr rfl, fun u => ?_⟩
        · iterate 4 refine ⟨_, by with_unfolding_all rfl, by decide, ?_⟩
          exact rfl
        · match u with
          | ⟨0, _⟩ => exact ⟨((0, .call), []), by decide, rfl⟩
          | ⟨1, _⟩ => exact ⟨((1, .call), []), by decide, rfl⟩)
    ⟨_, exec_of_run (r := (_, _)) (ls := [(0, .call), (0, .go)]) rfl⟩ (.inl rfl)
  refine ⟨st, lbl, ev, h1, fun u i => ?_, ?_, by rw [h2]⟩
  · rcases Nat.lt_or_ge u 2 with hu | hu
    · obtain ⟨j, hj, e⟩ := h4 ⟨u, hu⟩ i
      exact ⟨j, hj, .inl e⟩
    · refine ⟨i, Nat.le_refl _, .inr ?_⟩
      rintro ⟨a, r, _, hst⟩
      have hlen : (st i).ths.length = 2 := by
        obtain ⟨tr, hex⟩ := h1.reachable i
        refine hex.invariant' (fun s => s.ths.length = 2) (by simp [init]) fun s l s' es hl hst => ?_
        obtain ⟨t', a'⟩ := l
        simp only [step] at hst
        split at hst
        · cases hst
        split at hst
        all_goals first
          | (cases hst; done)
          | (obtain ⟨rfl, rfl⟩ := Prod.mk.inj (Option.some.inj hst); simpa using hl)
          | (split at hst <;> first | (cases hst; done) | (obtain ⟨rfl, rfl⟩ := Prod.mk.inj (Option.some.inj hst); simpa using hl))
      simp only [step] at hst
      rw [List.getElem?_eq_none (by omega)] at hst; cases hst
  · exact h3 0 (by rw [h2])

end Verif.WinGetEvent

namespace Verif.TimerInit

/-- **C116** (waitable timer): in every execution without end in which the scheduler does not forget a thread, an initialisation that begins comes to an end: it
is completed or it fails with an exception.  So `initialized` is never left in progress. -/
theorem C116_init_ends (c n : Nat) (st : Nat → St) (lbl : Nat → Nat × Act) (ev : Nat → List Ev) (h : Endless step (init c n) st lbl ev)
    (hs : Scheduled step Next st lbl) (t m i : Nat) (hi : .began t m ∈ ev i) : ∃ j, i < j ∧ ((∃ k, .done t m k ∈ ev j) ∨ .threw t m ∈ ev j) := by
  obtain ⟨pc, ht, hl⟩ := step_lstep (t := (lbl i).1) (a := (lbl i).2) (h.next i)
  have h1 : (st (i + 1)).ths[t]? = some (.openSem m) := by
    revert hl hi; generalize st (i + 1) = s', ev i = es, (lbl i).2 = a; intro hi hl
    cases hl <;> simp at hi
    obtain ⟨rfl, rfl⟩ := hi
    exact get_set_self ht
  obtain ⟨j, hj, ⟨_, _, r⟩ | r⟩ := from_crit h hs (m := m) _ (i + 1) _ (Nat.le_refl _) h1 (by simp [PC.crit])
  · exact ⟨j, by omega, .inl r⟩
  · exact ⟨j, by omega, .inr r⟩

/-- **C116** (waitable timer), what holds: if initialisations of the module do not fail again and again, every call of `get_waitable_timer` comes to an end: it
proceeds or throws.  Missing: the same while initialisations fail again and again, which is false. -/
theorem C116_call_partial (c n : Nat) (st : Nat → St) (lbl : Nat → Nat × Act) (ev : Nat → List Ev) (h : Endless step (init c n) st lbl ev)
    (hs : Scheduled step Next st lbl) (t m i : Nat) (hi : lbl i = (t, .call m)) (hno : ¬ Often fun j => ∃ u, .threw u m ∈ ev j) :
    ∃ j, i < j ∧ ((∃ k, .proceeded t m k ∈ ev j) ∨ .threw t m ∈ ev j) := by
  have hst := h.next i
  rw [hi] at hst
  have h1 : ∃ pc, (st (i + 1)).ths[t]? = some pc ∧ pc.mod = some m := by
    obtain ⟨pc, ht, hl⟩ := step_lstep hst
    revert hl hst; generalize st (i + 1) = s', ev i = es; intro hst hl
    cases hl with
    | call => exact ⟨_, get_set_self ht, rfl⟩
    | loadElse hd => simp [step, ht, hd] at hst
    | openNone hd ho => rcases ho with ho | ⟨ho, _⟩ <;> cases ho
  obtain ⟨i1, hi1⟩ := not_often hno
  refine Classical.byContradiction fun hne => ?_
  have inside := from_on (p := fun j => ∃ pc, (st j).ths[t]? = some pc ∧ pc.mod = some m) h1 fun j hj ⟨pc, ht, hp⟩ =>
    goes_on (u := (lbl j).1) (a := (lbl j).2) (h.next j) ht hp fun he => hne ⟨j, by omega, he⟩
  obtain ⟨pc, ht, hp⟩ := inside (max i1 (i + 1)) (by omega)
  obtain ⟨j, hj, r⟩ := call_ends h hs (fun j hj u hu => hi1 j (by omega) ⟨u, hu⟩) ht hp
  exact hne ⟨j, by omega, r⟩

/-- **C116** (waitable timer) is false otherwise: while the initialisation by another thread fails again and again for want of a TLS slot, a thread can find it in
progress whenever it looks, and neither proceeds nor throws.  All loads read the newest value. -/
theorem C116_call_refuted : Starves step (init 1 2) 2 (fun _ a => a ≠ .stale) (fun s => s.ths[1]? = some (.cas 0))
    (fun es => (∃ k, .proceeded 1 0 k ∈ es) ∨ .threw 1 0 ∈ es) [.began 0 0, .threw 0 0] := by
  refine starves_of_rounds (step := step) (P := fun s => s = ⟨[mod0], none, [], [.idle, .cas 0]⟩) (by decide)
    (s := ⟨[mod0], none, [], [.idle, .cas 0]⟩) ⟨_, exec_of_run (r := (_, _)) (ls := [(1, .call 0), (1, .go)]) rfl⟩ rfl rfl ?_
  rintro s rfl
  refine ⟨[((0, .call 0), []), ((0, .go), []), ((0, .go), [.began 0 0]), ((1, .go), []), ((0, .go), []), ((0, .fault), []), ((0, .go), [.threw 0 0])], ?_⟩
  apply Exists.intro
  refine ⟨?_, ?_, by decide, by decide⟩
  · iterate 7 refine ⟨_, by with_unfolding_all rfl, ⟨by decide, by simp⟩, ?_⟩
    exact rfl
  · rfl

/-- The hypotheses of the first two theorems can be met: thread 1 calls while thread 0 initialises; afterwards both call again and again. -/
example : ∃ st lbl ev, Endless step (init 1 2) st lbl ev ∧ Scheduled step Next st lbl ∧ lbl 0 = (1, .call 0) ∧ flagOf (st 0) 0 = some 1 ∧
    ¬ Often fun j => ∃ u, .threw u 0 ∈ ev j := by
  let d0 : Mod := ⟨1, 0, false, 0, 0⟩
  let d1 : Mod := ⟨2, 3, true, 1, 1⟩
  obtain ⟨st, lbl, ev, h1, h2, h3, h4⟩ := endless_of_rounds (step := step)
    (good := fun s l es => (s.ths = [.openSem 0, .idle] → l = (1, .call 0)) ∧ ∀ u, .threw u 0 ∉ es)
    (P := fun s => s = ⟨[d0], none, [], [.openSem 0, .idle]⟩ ∨ s = ⟨[d1], some 3, [3], [.idle, .idle]⟩) (R := fun (u : Fin 2) l _ => l.1 = u.1)
    (s₀ := init 1 2) (s := ⟨[d0], none, [], [.openSem 0, .idle]⟩) 0 (by
      rintro s (rfl | rfl)
      · refine ⟨[((1, .call 0), []), ((1, .go), []), ((1, .go), []), ((0, .go), []), ((0, .slot 3), []), ((0, .go), []), ((1, .go), []), ((0, .go), []),
          ((0, .go), [.done 0 0 3]), ((0, .go), [.proceeded 0 0 3]), ((1, .go), []), ((1, .go), [.proceeded 1 0 3])], ?_⟩
        apply Exists.intro
        refine ⟨?_, .inr rfl, fun u => ?_⟩
        · iterate 12 refine ⟨_, by with_unfolding_all rfl, ⟨by decide, by simp⟩, ?_⟩
          exact rfl
        · match u with
          | ⟨0, _⟩ => exact ⟨((0, .go), []), by decide, rfl⟩
          | ⟨1, _⟩ => exact ⟨((1, .go), []), by decide, rfl⟩
      · refine ⟨[((1, .call 0), []), ((1, .go), []), ((1, .go), [.proceeded 1 0 3]), ((0, .call 0), []), ((0, .go), []), ((0, .go), [.proceeded 0 0 3])], ?_⟩
        apply Exists.intro
        refine ⟨?_, .inr rfl, fun u => ?_⟩
        · iterate 6 refine ⟨_, by with_unfolding_all rfl, ⟨by decide, by simp⟩, ?_⟩
          exact rfl
        · match u with
          | ⟨0, _⟩ => exact ⟨((0, .go), []), by decide, rfl⟩
          | ⟨1, _⟩ => exact ⟨((1, .go), []), by decide, rfl⟩)
    ⟨_, exec_of_run (r := (_, _)) (ls := [(0, .call 0), (0, .go), (0, .go)]) rfl⟩ (.inl rfl)
  refine ⟨st, lbl, ev, h1, fun u i => ?_, (h3 0).1 (by rw [h2]), by rw [h2]; rfl, fun ho => ?_⟩
  · rcases Nat.lt_or_ge u 2 with hu | hu
    · obtain ⟨j, hj, e⟩ := h4 ⟨u, hu⟩ i
      exact ⟨j, hj, .inl e⟩
    · refine ⟨i, Nat.le_refl _, .inr ?_⟩
      rintro ⟨a, r, _, hst⟩
      have hlen : (st i).ths.length = 2 := by
        obtain ⟨tr, hex⟩ := h1.reachable i
        refine hex.invariant' (fun s => s.ths.length = 2) (by simp [init]) fun s l s' es hl hst => ?_
        obtain ⟨t', a'⟩ := l
        obtain ⟨pc, _, hl'⟩ := step_lstep hst
        cases hl' <;> simpa using hl
      obtain ⟨pc, ht, _⟩ := step_lstep (s' := r.1) (es := r.2) hst
      rw [List.getElem?_eq_none (by omega)] at ht; cases ht
  · obtain ⟨j, _, u, hu⟩ := ho 0
    exact (h3 j).2 u hu

end Verif.TimerInit
