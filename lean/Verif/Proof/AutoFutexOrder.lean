import Verif.Proof.AutoEventFutex
import Verif.Spec.AutoFutexOrder

/-! What threads know of the word, in the futex `auto_reset_event`. -/

namespace Verif.AutoFutexOrder

open AutoFutex (PC Th Kind posts waiters postOne retEv SInv Bal)

/-! ## The actions of `Verif.AutoFutex` -/

/-- A local copy of the word that was just loaded. -/
def copy : PC → Option UInt32
  | .postLoop old | .tryLoop _ old => some old
  | _ => none

theorem add_ne {w c : UInt32} (h : c ≠ 0) : w + c ≠ w := by
  intro e
  apply h
  have e := congrArg UInt32.toNat e
  rw [UInt32.toNat_add] at e
  apply UInt32.toNat_inj.mp
  have h1 := w.toNat_lt
  have h2 := c.toNat_lt
  change c.toNat = 0
  omega

theorem sub_ne {w c : UInt32} (h : c ≠ 0) : w - c ≠ w := by
  intro e
  apply h
  have e := congrArg UInt32.toNat e
  rw [UInt32.toNat_sub] at e
  apply UInt32.toNat_inj.mp
  have h1 := w.toNat_lt
  have h2 := c.toNat_lt
  change c.toNat = 0
  omega

/-- What an action does to the word and to what is observed. -/
inductive Shape (s : AutoFutex.St) (t : Nat) (th : Th) : AutoFutex.St → List AutoFutex.Ev → Prop
  | still (ths' : List Th) (es : List AutoFutex.Ev) (hv : ∀ u : Nat, ths'[u]?.map Th.view = s.ths[u]?.map Th.view) (he : ∀ u id, .work u id ∉ es) :
      Shape s t th { s with ths := ths' } es
  | rmw (o : Order) (new : UInt32) (pc' : PC) (es : List AutoFutex.Ev) (hn : new ≠ s.word.val) (he : ∀ u id, .work u id ∉ es) :
      Shape s t th { s with word := (s.word.rmw o th.view new).1, ths := s.ths.set t ⟨pc', (s.word.rmw o th.view new).2⟩ } es
  | work (hi : th.pc = .idle) :
      Shape s t th { s with ths := s.ths.set t { th with view := s.fresh :: th.view }, fresh := s.fresh + 1 } [.work t s.fresh]

theorem view_set {l : List Th} {t : Nat} {th : Th} (ht : l[t]? = some th) (pc : PC) : ∀ u : Nat, (l.set t ⟨pc, th.view⟩)[u]?.map Th.view = l[u]?.map Th.view := by
  intro u
  by_cases h : t = u
  · subst h; rw [get_set_self ht, ht]; rfl
  · rw [get_set_ne h]

theorem ret_not_work (t : Nat) (k : Kind) (b : Bool) : ∀ u id, AutoFutex.Ev.work u id ∉ [retEv t k b] := by
  intro u id h; cases k <;> simp [retEv] at h

theorem shape {s s' : AutoFutex.St} {t : Nat} {th : Th} {a : AutoFutex.Act} {es : List AutoFutex.Ev} (ht : s.ths[t]? = some th)
    (h : AutoFutex.step s (t, a) = some (s', es)) : Shape s t th s' es := by
  have h1 : postOne ≠ 0 := by decide
  have h2 : postOne + 1 ≠ 0 := by decide
  have h3 : (1 : UInt32) ≠ 0 := by decide
  unfold AutoFutex.step at h
  simp only [ht] at h
  split at h
  all_goals try contradiction
  all_goals (repeat' split at h)
  all_goals try contradiction
  all_goals
    simp only [Option.some.injEq, Prod.mk.injEq] at h
    obtain ⟨rfl, rfl⟩ := h
  all_goals first
    | (with_reducible refine Shape.rmw _ _ _ _ ?_ ?_
       · simp only [*]
         with_reducible first | exact add_ne h1 | exact add_ne h3 | exact sub_ne h1 | exact sub_ne h2 | exact sub_ne h3
       · first | simp; done | exact ret_not_work _ _ _)
    | (with_reducible refine Shape.still _ _ ?_ ?_
       · exact view_set ht _
       · first | simp; done | exact ret_not_work _ _ _)
    | (with_reducible refine Shape.work ?_; assumption)
    | skip
  · next j _ _ k v hj =>
    refine Shape.still _ _ ?_ (by simp)
    intro u
    have hj' : ∃ pc, (s.ths.set t ⟨.idle, th.view⟩)[j]? = some ⟨pc, v⟩ := by
      by_cases h : t = j
      · subst h
        rw [ht] at hj
        cases hj
        exact ⟨_, get_set_self ht⟩
      · exact ⟨_, (get_set_ne h).trans hj⟩
    obtain ⟨pc, hj'⟩ := hj'
    exact (view_set hj' (.reload k) u).trans (view_set ht .idle u)
  · exact Shape.rmw _ _ _ _ (add_ne h3) (by simp)

/-- Loads and failing compare-exchanges. -/
theorem load_shape {s s' : AutoFutex.St} {t : Nat} {th : Th} {v : UInt32} {es : List AutoFutex.Ev} (ht : s.ths[t]? = some th)
    (h : AutoFutex.step s (t, .load v) = some (s', es) ∨ AutoFutex.step s (t, .casFail v) = some (s', es)) :
    es = [] ∧ ∃ pc, s' = { s with ths := s.ths.set t ⟨pc, th.view⟩ } ∧ ∀ w, copy pc = some w → w = v := by
  rcases h with h | h
  all_goals
    unfold AutoFutex.step at h
    simp only [ht] at h
    split at h
    all_goals try contradiction
    all_goals (repeat' split at h)
    all_goals try contradiction
    all_goals
      rename_i heq
      simp only [Option.some.injEq, Prod.mk.injEq] at h
      obtain ⟨rfl, rfl⟩ := h
      refine ⟨rfl, _, rfl, fun w hw => ?_⟩
      first
        | (cases hw; done)
        | (cases hw
           cases ‹_ = _›
           rfl)

/-- Other actions leave no copy behind. -/
theorem op_copy {s s' : AutoFutex.St} {t : Nat} {th : Th} {a : AutoFutex.Act} {es : List AutoFutex.Ev} (ht : s.ths[t]? = some th)
    (hd : direct s.word.val th.pc a = true) (h : AutoFutex.step s (t, a) = some (s', es)) :
    ∀ (u : Nat) th' w, s'.ths[u]? = some th' → copy th'.pc = some w → ∃ th'', u ≠ t ∧ s.ths[u]? = some th'' ∧ th''.pc = th'.pc := by
  have key : ∀ (pc : PC) (v : View), copy pc = none → ∀ (u : Nat) th' w, (s.ths.set t ⟨pc, v⟩)[u]? = some th' → copy th'.pc = some w →
      ∃ th'', u ≠ t ∧ s.ths[u]? = some th'' ∧ th''.pc = th'.pc := by
    intro pc v hc u th' w hu hw
    rcases get_set_cases hu with ⟨_, rfl⟩ | ⟨hne, h3⟩
    · rw [hc] at hw; cases hw
    · exact ⟨th', fun h => hne h.symm, h3, rfl⟩
  unfold AutoFutex.step at h
  simp only [ht] at h
  split at h
  all_goals try contradiction
  all_goals (repeat' split at h)
  all_goals try contradiction
  all_goals
    simp only [Option.some.injEq, Prod.mk.injEq] at h
    obtain ⟨rfl, rfl⟩ := h
  all_goals first
    | (exact key _ _ rfl)
    | (exfalso; simp_all [direct]; done)
    | skip
  · next hi => exact key _ _ (by rw [hi]; rfl)
  · next j _ _ _ k v hj =>
    intro u th' w hu hw
    rcases get_set_cases hu with ⟨_, rfl⟩ | ⟨_, h3⟩
    · cases hw
    · exact key .idle _ rfl u th' w h3 hw

/-! ## The counting invariants do not depend on which values are loaded -/

theorem plain_append (a b : List Ev) : plain (a ++ b) = plain a ++ plain b := List.filterMap_append

theorem plain_ev (es : List AutoFutex.Ev) : plain (es.map .ev) = es := by
  unfold plain
  rw [List.filterMap_map]
  exact List.filterMap_some

/-- Views do not matter. -/
theorem good_view {s : AutoFutex.St} {t : Nat} {th : Th} (v : View) (ht : s.ths[t]? = some th) (I : SInv s) :
    SInv { s with ths := s.ths.set t { th with view := v } } ∧ Bal s [] { s with ths := s.ths.set t { th with view := v } } := by
  have c : ∀ (p : Th → Bool), p ⟨th.pc, v⟩ = p th → (s.ths.set t ⟨th.pc, v⟩).countP p = s.ths.countP p := by
    intro p hp
    have := countP_set (p := p) (b := ⟨th.pc, v⟩) ht
    rw [hp] at this
    omega
  have c1 := c Th.blocked rfl
  have c2 := c Th.isAsleep rfl
  have c3 := c Th.awake rfl
  have c4 := c Th.signalling rfl
  have c5 := c Th.prePost rfl
  have c6 := c Th.inWait rfl
  refine ⟨⟨?_, ?_, ?_, ?_, ?_⟩, ?_⟩
  · simpa using I.len
  · simp only [c1]; exact I.waiters
  · simp only [c1]; exact I.bound
  · simp only [c2, c3, c4]; exact I.wake
  · intro i th' h
    rcases get_set_cases h with ⟨_, rfl⟩ | ⟨_, h3⟩
    · exact I.loc t th ht
    · exact I.loc i th' h3
  · exact ⟨rfl, by simp only [c5]; exact Nat.le_refl _, by simp only [c6]; exact Nat.le_refl _⟩

theorem base_step {s s' : St} {l : Nat × Act} {es : List Ev} (I : SInv s.base) (h : step s l = some (s', es)) :
    SInv s'.base ∧ Bal s.base (plain es) s'.base := by
  obtain ⟨t, a⟩ := l
  unfold step at h
  simp only at h
  split at h
  · next th p ht hp =>
    split at h
    · split at h
      · split at h
        · cases h
        · next b es' hb =>
          obtain ⟨h1, h2⟩ := AutoFutex.step_good I hb
          split at h
          · cases h
            rw [plain_ev]
            exact ⟨h1, h2⟩
          · cases h
            have : plain (Ev.changed t b.word.val :: es'.map .ev) = es' := plain_ev es'
            rw [this]
            exact ⟨h1, h2⟩
      · cases h
    · split at h
      · cases h
      · split at h
        · split at h
          · cases h
          · next b es' hb =>
            cases h
            rw [plain_ev]
            exact AutoFutex.step_good I hb
        · cases h
    · split at h
      · cases h
      · split at h
        · split at h
          · cases h
          · next b es' hb =>
            cases h
            rw [plain_ev]
            exact AutoFutex.step_good I hb
        · cases h
    · split at h
      · split at h
        · cases h
          exact good_view _ ht I
        · cases h
      · cases h
  · cases h

theorem base_exec {s s' : St} {tr : List Ev} (I : SInv s.base) (h : Exec step s tr s') : SInv s'.base ∧ Bal s.base (plain tr) s'.base := by
  refine h.invariant (fun tr s' => SInv s'.base ∧ Bal s.base (plain tr) s'.base) ⟨I, Bal.refl _⟩ ?_
  intro tr s₁ l s₂ es ⟨I₁, B₁⟩ hs
  obtain ⟨I₂, B₂⟩ := base_step I₁ hs
  rw [plain_append]
  exact ⟨I₂, B₁.trans B₂⟩

/-! ## What has been observed -/

theorem split_append {a b tr es : List Ev} {e : Ev} (h : tr ++ es = a ++ e :: b) :
    (∃ b', tr = a ++ e :: b' ∧ b = b' ++ es) ∨ ∃ c, a = tr ++ c ∧ es = c ++ e :: b := by
  rcases List.append_eq_append_iff.mp h with ⟨c, h1, h2⟩ | ⟨c, h1, h2⟩
  · exact .inr ⟨c, h1, h2⟩
  · cases c with
    | nil =>
      simp only [List.nil_append] at h2
      exact .inr ⟨[], by simp [h1], h2.symm⟩
    | cons x c =>
      simp only [List.cons_append, List.cons.injEq] at h2
      obtain ⟨rfl, h2⟩ := h2
      exact .inl ⟨c, h1, h2⟩

theorem values_append (tr es : List Ev) : values (tr ++ es) = values tr ++ es.filterMap fun | .changed _ w => some w | _ => none := by
  unfold values
  rw [List.filterMap_append]
  rfl

theorem values_le (tr es : List Ev) : (values tr).length ≤ (values (tr ++ es)).length := by
  rw [values_append, List.length_append]; omega

theorem values_plain (tr : List Ev) (es : List AutoFutex.Ev) : values (tr ++ es.map .ev) = values tr := by
  rw [values_append]
  have : (es.map Ev.ev).filterMap (fun | .changed _ w => some w | _ => none) = [] := by
    rw [List.filterMap_eq_nil_iff]
    intro e he
    obtain ⟨e', _, rfl⟩ := List.mem_map.mp he
    rfl
  rw [this, List.append_nil]

theorem values_changed (tr : List Ev) (t : Nat) (w : UInt32) (es : List AutoFutex.Ev) : values (tr ++ Ev.changed t w :: es.map .ev) = values tr ++ [w] := by
  have : tr ++ Ev.changed t w :: es.map .ev = (tr ++ [Ev.changed t w]) ++ es.map .ev := by simp
  rw [this, values_plain, values_append]
  rfl

/-- What holds of what thread `t` has observed. -/
structure Own (tr : List Ev) (f : Nat) (t : Nat) (k : View) (p : Nat) : Prop where
  pos : p < (values tr).length
  ids : ∀ id ∈ k, id < f
  old : ∀ a u w b, tr = a ++ .changed u w :: b → ∀ id, Ev.ev (.work u id) ∈ b → id ∈ k → (values a).length ≤ p
  mine : ∀ a w b, tr = a ++ .changed t w :: b → (values a).length ≤ p

theorem Own.plain {tr : List Ev} {es : List AutoFutex.Ev} {f f' : Nat} {t : Nat} {k : View} {p : Nat} (h : Own tr f t k p) (hf : f ≤ f')
    (hes : ∀ u id, .work u id ∈ es → id ∉ k) : Own (tr ++ es.map .ev) f' t k p where
  pos := Nat.lt_of_lt_of_le h.pos (values_le _ _)
  ids id hi := Nat.lt_of_lt_of_le (h.ids id hi) hf
  old a u w b he id hw hi := by
    rcases split_append he with ⟨b', h1, rfl⟩ | ⟨c, h1, h2⟩
    · rcases List.mem_append.mp hw with hw | hw
      · exact h.old a u w b' h1 id hw hi
      · obtain ⟨e', hm, h⟩ := List.mem_map.mp hw
        cases h
        exact absurd hi (hes u id hm)
    · have : Ev.changed u w ∈ es.map Ev.ev := by rw [h2]; simp
      obtain ⟨_, _, h⟩ := List.mem_map.mp this
      cases h
  mine a w b he := by
    rcases split_append he with ⟨b', h1, rfl⟩ | ⟨c, h1, h2⟩
    · exact h.mine a w b' h1
    · have : Ev.changed t w ∈ es.map Ev.ev := by rw [h2]; simp
      obtain ⟨_, _, h⟩ := List.mem_map.mp this
      cases h

/-- Another thread changes the word. -/
theorem Own.other {tr : List Ev} {es : List AutoFutex.Ev} {f : Nat} {t u : Nat} {x : UInt32} {k : View} {p : Nat} (h : Own tr f t k p) (hu : u ≠ t)
    (hes : ∀ u id, .work u id ∉ es) : Own (tr ++ Ev.changed u x :: es.map .ev) f t k p where
  pos := Nat.lt_of_lt_of_le h.pos (values_le _ _)
  ids := h.ids
  old a u' w b he id hw hi := by
    have no : Ev.ev (.work u' id) ∉ Ev.changed u x :: es.map .ev := by
      intro hm
      rcases List.mem_cons.mp hm with h | hm
      · cases h
      · obtain ⟨e', hm, h⟩ := List.mem_map.mp hm
        cases h
        exact hes _ _ hm
    rcases split_append he with ⟨b', h1, rfl⟩ | ⟨c, h1, h2⟩
    · rcases List.mem_append.mp hw with hw | hw
      · exact h.old a u' w b' h1 id hw hi
      · exact absurd hw no
    · exact absurd (by rw [h2]; simp [hw]) no
  mine a w b he := by
    rcases split_append he with ⟨b', h1, rfl⟩ | ⟨c, h1, h2⟩
    · exact h.mine a w b' h1
    · have : Ev.changed t w ∈ Ev.changed u x :: es.map Ev.ev := by rw [h2]; simp
      rcases List.mem_cons.mp this with h | hm
      · cases h; exact absurd rfl hu
      · obtain ⟨_, _, h⟩ := List.mem_map.mp hm
        cases h

/-- The thread that has changed the word knows all changes. -/
theorem own_newest {tr : List Ev} {f : Nat} {t : Nat} {k : View} (hk : ∀ id ∈ k, id < f) : ∀ {p : Nat}, p + 1 = (values tr).length → Own tr f t k p := by
  intro p hp
  have key : ∀ a u w b, tr = a ++ .changed u w :: b → (values a).length ≤ p := by
    intro a u w b he
    have e : tr = (a ++ [.changed u w]) ++ b := by rw [he]; simp
    have h1 := values_le (a ++ [.changed u w]) b
    rw [← e, values_append] at h1
    simp only [List.length_append] at h1
    have : (List.filterMap (fun | Ev.changed _ w => some w | _ => none) [Ev.changed u w]).length = 1 := rfl
    omega
  exact ⟨by omega, hk, fun a u w b he id _ _ => key a u w b he, fun a w b he => key a t w b he⟩

structure Inv (tr : List Ev) (s : St) : Prop where
  hist : s.hist = values tr
  last : s.hist.getLast? = some s.base.word.val
  fresh : ∀ u id, Ev.ev (.work u id) ∈ tr → id < s.base.fresh
  msg : ∀ id ∈ s.base.word.msg, id < s.base.fresh
  own : ∀ (t : Nat) th p, s.base.ths[t]? = some th → s.pos[t]? = some p → Own tr s.base.fresh t th.view p
  copies : ∀ (t : Nat) th p w, s.base.ths[t]? = some th → s.pos[t]? = some p → copy th.pc = some w → s.hist[p]? = some w

theorem inv_init (n : Nat) : Inv [] (init n) where
  hist := rfl
  last := rfl
  fresh := nofun
  msg id h := by cases h
  own t th p h h' := by
    rw [get_replicate (n := n) (i := t) h, get_replicate (n := n) (i := t) h']
    exact own_newest (fun id h => by cases h) rfl
  copies t th p w h h' hc := by
    rw [get_replicate (n := n) (i := t) h] at hc
    cases hc

theorem some_view {ths ths' : List Th} {u : Nat} {th' : Th} (hv : ths'[u]?.map Th.view = ths[u]?.map Th.view) (h : ths'[u]? = some th') :
    ∃ th, ths[u]? = some th ∧ th.view = th'.view := by
  rw [h] at hv
  cases hu : ths[u]? with
  | none => rw [hu] at hv; cases hv
  | some th => rw [hu] at hv; exact ⟨th, rfl, by simpa using hv.symm⟩

theorem get_append {l : List UInt32} {i : Nat} {w x : UInt32} (h : l[i]? = some w) : (l ++ [x])[i]? = some w := by
  rw [List.getElem?_append_left (List.getElem?_eq_some_iff.mp h).1]
  exact h

theorem inv_step {tr es : List Ev} {s s' : St} {l : Nat × Act} (I : Inv tr s) (h : step s l = some (s', es)) : Inv (tr ++ es) s' := by
  obtain ⟨t, a⟩ := l
  unfold step at h
  simp only at h
  split at h
  · next th p ht hp =>
    have O := I.own t th p ht hp
    have noload : ∀ {b : AutoFutex.St} {es' : List AutoFutex.Ev} {v : UInt32} {i : Nat}, s.hist[i]? = some v → p ≤ i →
        (AutoFutex.step s.base (t, .load v) = some (b, es') ∨ AutoFutex.step s.base (t, .casFail v) = some (b, es')) →
        Inv (tr ++ es'.map .ev) { s with base := b, pos := s.pos.set t i } := by
      intro b es' v i hi hpi hb
      obtain ⟨rfl, pc, rfl, hc⟩ := load_shape ht hb
      simp only [List.map_nil, List.append_nil]
      refine ⟨I.hist, I.last, I.fresh, I.msg, ?_, ?_⟩
      · intro u th' q hu hq
        rcases get_set_cases hu with ⟨rfl, rfl⟩ | ⟨hne, h3⟩
        · rw [get_set_self hp] at hq
          cases hq
          exact ⟨by rw [← I.hist]; exact (List.getElem?_eq_some_iff.mp hi).1, O.ids, fun a u w b he id hw hk => Nat.le_trans (O.old a u w b he id hw hk) hpi,
            fun a w b he => Nat.le_trans (O.mine a w b he) hpi⟩
        · rw [get_set_ne (fun h => hne h)] at hq
          exact I.own u th' q h3 hq
      · intro u th' q w hu hq hw
        rcases get_set_cases hu with ⟨rfl, rfl⟩ | ⟨hne, h3⟩
        · rw [get_set_self hp] at hq
          cases hq
          rw [hc w hw]; exact hi
        · rw [get_set_ne (fun h => hne h)] at hq
          exact I.copies u th' q w h3 hq hw
    split at h
    · next a =>
      split at h
      · next hd =>
        split at h
        · cases h
        · next b es' hb =>
          have hcopy := op_copy ht hd hb
          have hshape := shape ht hb
          split at h
          · next hw =>
            cases h
            cases hshape with
            | rmw o new pc' es' hn he => exact absurd hw hn
            | still ths' es' hv he =>
              refine ⟨?_, I.last, ?_, I.msg, ?_, ?_⟩
              · rw [values_plain]; exact I.hist
              · intro u id hm
                rcases List.mem_append.mp hm with hm | hm
                · exact I.fresh u id hm
                · obtain ⟨e', hm, h⟩ := List.mem_map.mp hm
                  cases h
                  exact absurd hm (he u id)
              · intro u th' q hu hq
                obtain ⟨th'', h1, h2⟩ := some_view (hv u) hu
                rw [← h2]
                exact (I.own u th'' q h1 hq).plain (Nat.le_refl _) (fun u id hm => absurd hm (he u id))
              · intro u th' q w hu hq hc
                obtain ⟨th'', _, h1, h2⟩ := hcopy u th' w hu hc
                exact I.copies u th'' q w h1 hq (by rw [h2]; exact hc)
            | work hi =>
              refine ⟨?_, I.last, ?_, ?_, ?_, ?_⟩
              · rw [values_plain]; exact I.hist
              · intro u id hm
                rcases List.mem_append.mp hm with hm | hm
                · exact Nat.lt_succ_of_lt (I.fresh u id hm)
                · cases List.mem_singleton.mp hm
                  exact Nat.lt_succ_self _
              · intro id hm; exact Nat.lt_succ_of_lt (I.msg id hm)
              · intro u th' q hu hq
                rcases get_set_cases hu with ⟨rfl, rfl⟩ | ⟨hne, h3⟩
                · rw [hp] at hq
                  cases hq
                  refine ⟨Nat.lt_of_lt_of_le O.pos (values_le _ _), ?_, ?_, ?_⟩
                  · intro id hm
                    rcases List.mem_cons.mp hm with rfl | hm
                    · exact Nat.lt_succ_self _
                    · exact Nat.lt_succ_of_lt (O.ids id hm)
                  · intro a u w b he id hw hk
                    rcases split_append he with ⟨b', h1, rfl⟩ | ⟨c, h1, h2⟩
                    · rcases List.mem_append.mp hw with hw | hw
                      · rcases List.mem_cons.mp hk with rfl | hk
                        · have := I.fresh u s.base.fresh (by rw [h1]; simp [hw])
                          exact absurd this (Nat.lt_irrefl _)
                        · exact O.old a u w b' h1 id hw hk
                      · cases List.mem_singleton.mp hw
                        exact O.mine a w b' h1
                    · have : Ev.changed u w ∈ [Ev.ev (.work t s.base.fresh)] := by
                        change Ev.changed u w ∈ List.map Ev.ev [_]
                        rw [h2]; simp
                      cases List.mem_singleton.mp this
                  · intro a w b he
                    rcases split_append he with ⟨b', h1, rfl⟩ | ⟨c, h1, h2⟩
                    · exact O.mine a w b' h1
                    · have : Ev.changed t w ∈ [Ev.ev (.work t s.base.fresh)] := by
                        change Ev.changed t w ∈ List.map Ev.ev [_]
                        rw [h2]; simp
                      cases List.mem_singleton.mp this
                · have O' := I.own u th' q h3 hq
                  refine O'.plain (Nat.le_succ _) (fun u' id hm hk => ?_)
                  cases List.mem_singleton.mp hm
                  exact Nat.lt_irrefl _ (O'.ids _ hk)
              · intro u th' q w hu hq hc
                obtain ⟨th'', _, h1, h2⟩ := hcopy u th' w hu hc
                exact I.copies u th'' q w h1 hq (by rw [h2]; exact hc)
          · next hw =>
            cases h
            cases hshape with
            | still ths' es' hv he => exact absurd rfl hw
            | work hi => exact absurd rfl hw
            | rmw o new pc' es' hn he =>
              have hids : ∀ id ∈ (s.base.word.rmw o th.view new).2, id < s.base.fresh := by
                intro id hm
                unfold Loc.rmw at hm
                simp only at hm
                split at hm
                · rcases List.mem_append.mp hm with hm | hm
                  · exact O.ids id hm
                  · exact I.msg id hm
                · exact O.ids id hm
              have hval : (s.base.word.rmw o th.view new).1.val = new := rfl
              refine ⟨?_, ?_, ?_, ?_, ?_, ?_⟩
              · rw [values_changed, I.hist]
              · simp
              · intro u id hm
                rcases List.mem_append.mp hm with hm | hm
                · exact I.fresh u id hm
                · rcases List.mem_cons.mp hm with h | hm
                  · cases h
                  · obtain ⟨e', hm, h⟩ := List.mem_map.mp hm
                    cases h
                    exact absurd hm (he u id)
              · intro id hm
                simp only [Loc.rmw] at hm
                split at hm
                · rcases List.mem_append.mp hm with hm | hm
                  · exact I.msg id hm
                  · exact hids id hm
                · exact I.msg id hm
              · intro u th' q hu hq
                rcases get_set_cases hu with ⟨rfl, rfl⟩ | ⟨hne, h3⟩
                · simp only at hq
                  rw [get_set_self hp] at hq
                  cases hq
                  refine own_newest hids ?_
                  rw [values_changed, I.hist]; simp
                · simp only at hq
                  rw [get_set_ne (fun h => hne h)] at hq
                  exact (I.own u th' q h3 hq).other (fun h => hne h) he
              · intro u th' q w hu hq hc
                obtain ⟨th'', hne, h1, h2⟩ := hcopy u th' w hu hc
                simp only at hq
                rw [get_set_ne (fun h => hne h.symm)] at hq
                exact get_append (I.copies u th'' q w h1 hq (by rw [h2]; exact hc))
      · cases h
    · split at h
      · cases h
      · next v hi =>
        split at h
        · next hpi =>
          split at h
          · cases h
          · next b es' hb => cases h; exact noload hi hpi (.inl hb)
        · cases h
    · split at h
      · cases h
      · next v hi =>
        split at h
        · next hpi =>
          split at h
          · cases h
          · next b es' hb => cases h; exact noload hi hpi (.inr hb)
        · cases h
    · next u =>
      split at h
      · next th' q hu hq =>
        split at h
        · next hidle =>
          cases h
          have O' := I.own u th' q hu hq
          rw [List.append_nil]
          refine ⟨I.hist, I.last, I.fresh, I.msg, ?_, ?_⟩
          · intro u' th'' q' hu' hq'
            rcases get_set_cases hu' with ⟨rfl, rfl⟩ | ⟨hne, h3⟩
            · simp only at hq'
              rw [get_set_self hp] at hq'
              cases hq'
              refine ⟨?_, ?_, ?_, ?_⟩
              · have := O.pos; have := O'.pos; omega
              · intro id hm
                rcases List.mem_append.mp hm with hm | hm
                · exact O.ids id hm
                · exact O'.ids id hm
              · intro a u w b he id hw hk
                rcases List.mem_append.mp hk with hk | hk
                · have := O.old a u w b he id hw hk; omega
                · have := O'.old a u w b he id hw hk; omega
              · intro a w b he
                have := O.mine a w b he; omega
            · simp only at hq'
              rw [get_set_ne (fun h => hne h)] at hq'
              exact I.own u' th'' q' h3 hq'
          · intro u' th'' q' w hu' hq' hc
            rcases get_set_cases hu' with ⟨rfl, rfl⟩ | ⟨hne, h3⟩
            · rw [show ({ th with view := th.view ++ th'.view } : Th).pc = .idle from hidle.1] at hc
              cases hc
            · simp only at hq'
              rw [get_set_ne (fun h => hne h)] at hq'
              exact I.copies u' th'' q' w h3 hq' hc
        · cases h
      · cases h
  · cases h

theorem inv_exec {n : Nat} {tr : List Ev} {s : St} (h : Exec step (init n) tr s) : Inv tr s :=
  h.invariant Inv (inv_init n) (fun _ _ _ _ _ I hs => inv_step I hs)

/-- What a step appends to the values is the present one. -/
theorem values_step {tr es : List Ev} {s s' : St} {l : Nat × Act} (h : step s l = some (s', es)) :
    values (tr ++ es) = values tr ∨ values (tr ++ es) = values tr ++ [s'.base.word.val] := by
  obtain ⟨t, a⟩ := l
  unfold step at h
  simp only at h
  repeat' split at h
  all_goals first
    | (cases h; done)
    | (cases h; exact .inl (values_plain _ _))
    | (cases h; exact .inr (values_changed _ _ _ _))
    | (cases h; rw [List.append_nil]; exact .inl rfl)

/-- Every value of the word was its value at some instant. -/
theorem instant {n : Nat} {tr : List Ev} {s : St} (h : Exec step (init n) tr s) {i : Nat} {x : UInt32} (hx : s.hist[i]? = some x) :
    ∃ tr₁ s₁ tr₂, tr = tr₁ ++ tr₂ ∧ Exec step (init n) tr₁ s₁ ∧ Exec step s₁ tr₂ s ∧ (values tr₁).length = i + 1 ∧ s₁.base.word.val = x := by
  rw [(inv_exec h).hist] at hx
  induction h with
  | init =>
    cases i with
    | zero => cases hx; exact ⟨[], _, [], rfl, .init, .init, rfl, rfl⟩
    | succ i => simp [values] at hx
  | snoc hE hs ih =>
    rename_i tr s s' l es
    by_cases hi : i < (values tr).length
    · rw [values_append, List.getElem?_append_left hi] at hx
      obtain ⟨tr₁, s₁, tr₂, e, h1, h2, h3, h4⟩ := ih hx
      exact ⟨tr₁, s₁, tr₂ ++ es, by rw [e, List.append_assoc], h1, h2.snoc hs, h3, h4⟩
    · rcases values_step (tr := tr) hs with hv | hv
      · rw [hv] at hx
        exact absurd (List.getElem?_eq_some_iff.mp hx).1 hi
      · rw [hv, List.getElem?_append_right (Nat.le_of_not_lt hi)] at hx
        obtain ⟨h1, h2⟩ := List.getElem?_eq_some_iff.mp hx
        simp only [List.length_singleton] at h1
        refine ⟨tr ++ es, s', [], (List.append_nil _).symm, hE.snoc hs, .init, ?_, by simpa using h2⟩
        rw [hv]; simp; omega

/-- The instant at which the value that thread `t` has a copy of was current. -/
theorem copy_instant {n : Nat} {tr : List Ev} {s : St} (h : Exec step (init n) tr s) {t : Nat} {th : Th} (ht : s.base.ths[t]? = some th) {p : Nat}
    (hp : s.pos[t]? = some p) {w : UInt32} (hw : s.hist[p]? = some w) : Instant n t th.view tr s (fun _ b => b.word.val = w) := by
  have O := (inv_exec h).own t th p ht hp
  obtain ⟨tr₁, s₁, tr₂, e, h1, h2, h3, h4⟩ := instant h hw
  refine ⟨tr₁, s₁, tr₂, e, h1, h2, h4, ?_⟩
  rintro a ev c hev ⟨u, y, rfl, hk⟩
  have hpos : (values a).length ≤ p := by
    rcases hk with rfl | ⟨id, hw, hm⟩
    · exact O.mine a y c hev
    · exact O.old a u y c hev id hw hm
  have hlt : (values a).length < (values tr₁).length := by omega
  rw [e] at hev
  rcases List.append_eq_append_iff.mp hev with ⟨c', k1, k2⟩ | ⟨c', k1, k2⟩
  · rw [k1] at hlt
    have := values_le tr₁ c'
    omega
  · cases c' with
    | nil => rw [k1, List.append_nil] at hlt; omega
    | cons z c' =>
      simp only [List.cons_append, List.cons.injEq] at k2
      obtain ⟨rfl, _⟩ := k2
      exact ⟨c', k1⟩

theorem Instant.mono {n t : Nat} {k : View} {tr : List Ev} {s : St} {P Q : List AutoFutex.Ev → AutoFutex.St → Prop} (h : Instant n t k tr s P)
    (hPQ : ∀ tr₁ s₁, Exec step (init n) tr₁ s₁ → P (plain tr₁) s₁.base → Q (plain tr₁) s₁.base) : Instant n t k tr s Q := by
  obtain ⟨tr₁, s₁, tr₂, e, h1, h2, h3, h4⟩ := h
  exact ⟨tr₁, s₁, tr₂, e, h1, h2, hPQ tr₁ s₁ h1 h3, h4⟩

/-! ## Which steps end a call -/

/-- What is reported is reported by an action of `Verif.AutoFutex`. -/
theorem base_of_ev {s s' : St} {t : Nat} {a : Act} {es : List Ev} (h : step s (t, a) = some (s', es)) {e : AutoFutex.Ev} (he : .ev e ∈ es) :
    ∃ th p a' b es', s.base.ths[t]? = some th ∧ s.pos[t]? = some p ∧ AutoFutex.step s.base (t, a') = some (b, es') ∧ e ∈ es' ∧
      (∀ e', .ev e' ∈ es ↔ e' ∈ es') := by
  have m : ∀ (es' : List AutoFutex.Ev) e', Ev.ev e' ∈ es'.map Ev.ev ↔ e' ∈ es' := by
    intro es' e'
    constructor
    · intro h
      obtain ⟨x, hx, h⟩ := List.mem_map.mp h
      cases h; exact hx
    · exact fun h => List.mem_map.mpr ⟨e', h, rfl⟩
  have m' : ∀ (es' : List AutoFutex.Ev) w e', Ev.ev e' ∈ Ev.changed t w :: es'.map Ev.ev ↔ e' ∈ es' := by
    intro es' w e'
    rw [List.mem_cons, m]
    simp
  unfold step at h
  simp only at h
  split at h
  · next th p ht hp =>
    split at h
    · split at h
      · split at h
        · cases h
        · next b es' hb =>
          split at h
          · cases h; exact ⟨th, p, _, b, es', ht, hp, hb, (m es' e).mp he, m es'⟩
          · cases h; exact ⟨th, p, _, b, es', ht, hp, hb, (m' es' _ e).mp he, m' es' _⟩
      · cases h
    · split at h
      · cases h
      · split at h
        · split at h
          · cases h
          · next b es' hb => cases h; exact ⟨th, p, _, b, es', ht, hp, hb, (m es' e).mp he, m es'⟩
        · cases h
    · split at h
      · cases h
      · split at h
        · split at h
          · cases h
          · next b es' hb => cases h; exact ⟨th, p, _, b, es', ht, hp, hb, (m es' e).mp he, m es'⟩
        · cases h
    · split at h
      · split at h
        · cases h; cases he
        · cases h
      · cases h
  · cases h

theorem ret_ne {t : Nat} {k : Kind} {e : AutoFutex.Ev} (h : e ≠ .waitDone t ∧ e ≠ .tryDone t true ∧ e ≠ .timedDone t true) : e ∉ [retEv t k true] := by
  intro hm
  have := List.mem_singleton.mp hm
  cases k <;> simp [retEv] at this <;> simp [this] at h

theorem post_returns {s s' : AutoFutex.St} {t : Nat} {th : Th} {a : AutoFutex.Act} {es : List AutoFutex.Ev} (ht : s.ths[t]? = some th)
    (h : AutoFutex.step s (t, a) = some (s', es)) (hd : .postDone t ∈ es) (hn : .posted t ∉ es) :
    th.pc = .postSignal ∨ ∃ old, th.pc = .postLoop old ∧ ¬ waiters old ≥ posts old := by
  unfold AutoFutex.step at h
  simp only [ht] at h
  split at h
  all_goals try contradiction
  all_goals (repeat' split at h)
  all_goals try contradiction
  all_goals
    simp only [Option.some.injEq, Prod.mk.injEq] at h
    obtain ⟨rfl, rfl⟩ := h
  all_goals first
    | (simp at hd; done)
    | (exfalso; exact hn (List.mem_cons_self ..))
    | (left; assumption)
    | (right; exact ⟨_, by assumption, by assumption⟩)
    | exact absurd hd (ret_ne (by simp))

theorem fails {s s' : AutoFutex.St} {t : Nat} {th : Th} {a : AutoFutex.Act} {es : List AutoFutex.Ev} (ht : s.ths[t]? = some th)
    (h : AutoFutex.step s (t, a) = some (s', es)) (hd : .tryDone t false ∈ es ∨ .timedDone t false ∈ es) :
    (∃ k old, th.pc = .tryLoop k old ∧ ¬ posts old > 0) ∨ posts s.word.val = 0 := by
  unfold AutoFutex.step at h
  simp only [ht] at h
  split at h
  all_goals try contradiction
  all_goals (repeat' split at h)
  all_goals try contradiction
  all_goals
    simp only [Option.some.injEq, Prod.mk.injEq] at h
    obtain ⟨rfl, rfl⟩ := h
  all_goals first
    | (simp at hd; done)
    | (left; exact ⟨_, _, by assumption, by assumption⟩)
    | (right; rename_i h1 h2; rw [h2]; exact h1)
    | (rcases hd with hd | hd <;> exact absurd hd (ret_ne (by simp)))

/-- Threads report their own calls. -/
theorem called_own {s s' : AutoFutex.St} {t : Nat} {th : Th} {a : AutoFutex.Act} {es : List AutoFutex.Ev} (ht : s.ths[t]? = some th)
    (h : AutoFutex.step s (t, a) = some (s', es)) {u : Nat} {op : AutoFutex.Op} (hd : .called u op ∈ es) : u = t := by
  unfold AutoFutex.step at h
  simp only [ht] at h
  split at h
  all_goals try contradiction
  all_goals (repeat' split at h)
  all_goals try contradiction
  all_goals
    simp only [Option.some.injEq, Prod.mk.injEq] at h
    obtain ⟨rfl, rfl⟩ := h
  all_goals first
    | (simp at hd; done)
    | (cases List.mem_singleton.mp hd; rfl)
    | exact absurd hd (ret_ne (by simp))

/-- A thread is about to call the kernel only after its compare-exchange. -/
theorem signal_own {s s' : AutoFutex.St} {t : Nat} {th : Th} {a : AutoFutex.Act} {es : List AutoFutex.Ev} (ht : s.ths[t]? = some th)
    (h : AutoFutex.step s (t, a) = some (s', es)) {u : Nat} {th' : Th} (hu : s'.ths[u]? = some th') (hp : th'.pc = .postSignal) :
    (u = t ∧ es = [.posted t]) ∨ ∃ th'', u ≠ t ∧ s.ths[u]? = some th'' ∧ th''.pc = .postSignal := by
  have key : ∀ (pc : PC) (v : View), pc ≠ .postSignal → (s.ths.set t ⟨pc, v⟩)[u]? = some th' → ∃ th'', u ≠ t ∧ s.ths[u]? = some th'' ∧ th''.pc = .postSignal := by
    intro pc v hc hu
    rcases get_set_cases hu with ⟨_, rfl⟩ | ⟨hne, h3⟩
    · exact absurd hp hc
    · exact ⟨th', fun h => hne h.symm, h3, hp⟩
  unfold AutoFutex.step at h
  simp only [ht] at h
  split at h
  all_goals try contradiction
  all_goals (repeat' split at h)
  all_goals try contradiction
  all_goals
    simp only [Option.some.injEq, Prod.mk.injEq] at h
    obtain ⟨rfl, rfl⟩ := h
  all_goals first
    | (refine .inr (key _ _ ?_ hu); simp; done)
    | (refine .inr (key _ _ ?_ hu); rw [‹th.pc = _›]; simp; done)
    | (rcases get_set_cases hu with ⟨rfl, rfl⟩ | ⟨hne, h3⟩
       · exact .inl ⟨rfl, rfl⟩
       · exact .inr ⟨th', fun h => hne h.symm, h3, hp⟩)
    | skip
  · next j _ _ _ k v hj =>
    rcases get_set_cases hu with ⟨rfl, rfl⟩ | ⟨_, h3⟩
    · cases hp
    · exact .inr (key .idle _ (by simp) h3)

/-- A thread about to call the kernel has made a post since its last call. -/
theorem signalled {n : Nat} {tr : List Ev} {s : St} (h : Exec step (init n) tr s) :
    ∀ (t : Nat) th, s.base.ths[t]? = some th → th.pc = .postSignal → ∃ a b, tr = a ++ .ev (.posted t) :: b ∧ ∀ op, Ev.ev (.called t op) ∉ b := by
  refine h.invariant (fun tr s => ∀ (t : Nat) th, s.base.ths[t]? = some th → th.pc = .postSignal →
    ∃ a b, tr = a ++ Ev.ev (.posted t) :: b ∧ ∀ op, Ev.ev (.called t op) ∉ b) ?_ ?_
  · intro t th ht hp
    rw [get_replicate (n := n) (i := t) ht] at hp
    cases hp
  · intro tr s l s' es I hs u th' hu hp
    obtain ⟨t, a⟩ := l
    have ext : ∀ th'', u ≠ t → s.base.ths[u]? = some th'' → th''.pc = .postSignal → ∃ a b, tr ++ es = a ++ Ev.ev (.posted u) :: b ∧ ∀ op, Ev.ev (.called u op) ∉ b := by
      intro th'' hne h1 h2
      obtain ⟨c, d, e, hd⟩ := I u th'' h1 h2
      refine ⟨c, d ++ es, by rw [e]; simp, fun op hm => ?_⟩
      rcases List.mem_append.mp hm with hm | hm
      · exact hd op hm
      · obtain ⟨th, _, _, _, _, k1, _, k2, k3, _⟩ := base_of_ev hs hm
        exact hne (called_own k1 k2 k3)
    have base : ∀ {a'} {b : AutoFutex.St} {es'} {th : Th}, s.base.ths[t]? = some th → AutoFutex.step s.base (t, a') = some (b, es') → b.ths[u]? = some th' →
        (∃ pre, es = pre ++ es'.map .ev) → ∃ a b, tr ++ es = a ++ Ev.ev (.posted u) :: b ∧ ∀ op, Ev.ev (.called u op) ∉ b := by
      rintro a' b es' th ht hb hu' ⟨pre, hes⟩
      rcases signal_own ht hb hu' hp with ⟨rfl, rfl⟩ | ⟨th'', h1, h2, h3⟩
      · exact ⟨tr ++ pre, [], by rw [hes]; simp, fun op hm => by cases hm⟩
      · exact ext th'' h1 h2 h3
    unfold step at hs
    simp only at hs
    split at hs
    · next th p ht hpp =>
      split at hs
      · split at hs
        · split at hs
          · cases hs
          · next b es' hb =>
            split at hs
            · cases hs; exact base ht hb hu ⟨[], rfl⟩
            · cases hs; exact base ht hb hu ⟨[_], rfl⟩
        · cases hs
      · split at hs
        · cases hs
        · split at hs
          · split at hs
            · cases hs
            · next b es' hb => cases hs; exact base ht hb hu ⟨[], rfl⟩
          · cases hs
      · split at hs
        · cases hs
        · split at hs
          · split at hs
            · cases hs
            · next b es' hb => cases hs; exact base ht hb hu ⟨[], rfl⟩
          · cases hs
      · split at hs
        · split at hs
          · next hidle =>
            cases hs
            rcases get_set_cases hu with ⟨rfl, rfl⟩ | ⟨hne, h3⟩
            · rw [show ({ th with view := _ } : Th).pc = .idle from hidle.1] at hp
              cases hp
            · exact ext th' (fun h => hne h.symm) h3 hp
          · cases hs
        · cases hs
    · cases hs

/-- The last change of the word. -/
theorem last_change (tr : List Ev) : (values tr).length = 1 ∨ ∃ a u w b, tr = a ++ .changed u w :: b ∧ (values tr).length = (values a).length + 1 := by
  have key : ∀ n (tr : List Ev), tr.length = n → (values tr).length = 1 ∨ ∃ a u w b, tr = a ++ .changed u w :: b ∧ (values tr).length = (values a).length + 1 := by
    intro n
    induction n with
    | zero => intro tr h; rw [List.length_eq_zero_iff.mp h]; exact .inl rfl
    | succ n ih =>
      intro tr h
      have hne : tr ≠ [] := by intro e; rw [e] at h; cases h
      obtain ⟨l, e, rfl⟩ : ∃ l e, tr = l ++ [e] := ⟨_, _, (List.dropLast_concat_getLast hne).symm⟩
      rw [List.length_append, List.length_singleton] at h
      cases e with
      | changed u w => exact .inr ⟨l, u, w, [], rfl, by rw [values_append]; simp⟩
      | ev e =>
        have hv : values (l ++ [.ev e]) = values l := values_plain l [e]
        rw [hv]
        rcases ih l (by omega) with h | ⟨a, u, w, b, rfl, h⟩
        · exact .inl h
        · exact .inr ⟨a, u, w, b ++ [.ev e], by simp, h⟩
  exact key _ tr rfl

end Verif.AutoFutexOrder
