import Verif.Proof.Endless
import Verif.Proof.TimerInit
import Verif.Proof.TssOnce
import Verif.Proof.WinGetEvent
import Verif.Spec.OnceEnds

/-!
# Lemmas for C116
-/

open Verif.Spec.Endless

namespace Verif.TssOnce

variable {n : Nat} {st : Nat → St} {lbl : Nat → Nat × Act} {ev : Nat → List Ev}

theorem not_aborted (h : Endless step (init n) st lbl ev) (j : Nat) : (st j).aborted = false := by
  obtain ⟨ha, _⟩ := step_lstep (t := (lbl j).1) (a := (lbl j).2) (h.next j)
  exact ha

theorem ready_next {s : St} {t : Nat} {pc : PC} (ha : s.aborted = false) (ht : s.ths[t]? = some pc) (hp : pc ≠ .idle) : Ready step Next s t := by
  cases pc with
  | idle => exact absurd rfl hp
  | load => exact ⟨.stale, _, trivial, by simp only [step, ha, ht]; rfl⟩
  | cas =>
    rcases Classical.em (s.flag = 0) with h0 | h0
    · exact ⟨.go, _, trivial, by simp only [step, ha, ht, h0]; rfl⟩
    · rcases Classical.em (s.flag = 2) with h2 | h2
      · exact ⟨.go, _, trivial, by simp only [step, ha, ht, h2]; rfl⟩
      · exact ⟨.go, _, trivial, by simp only [step, ha, ht, if_neg h0, if_neg h2]; rfl⟩
  | construct => exact ⟨.fault, _, trivial, by simp only [step, ha, ht]; rfl⟩
  | tls => exact ⟨.go, _, trivial, by simp only [step, ha, ht]; rfl⟩
  | publish => exact ⟨.go, _, trivial, by simp only [step, ha, ht]; rfl⟩
  | ready => exact ⟨.go, _, trivial, by simp only [step, ha, ht]; rfl⟩

theorem other {s s' : St} {u t : Nat} {a : Act} {es : List Ev} (h : step s (u, a) = some (s', es)) (hu : u ≠ t) : s'.ths[t]? = s.ths[t]? := by
  obtain ⟨_, pc, _, hl⟩ := step_lstep h
  cases hl <;> first | rfl | exact get_set_ne hu

/-- A thread inside takes its next step. -/
theorem goes (h : Endless step (init n) st lbl ev) (hs : Scheduled step Next st lbl) {t i : Nat} {pc : PC} (ht : (st i).ths[t]? = some pc) (hp : pc ≠ .idle) :
    ∃ j, i ≤ j ∧ LStep (st j) t pc (st (j + 1)) (ev j) ∧ (st j).ths[t]? = some pc := by
  obtain ⟨j, hj, hq, hl⟩ := hs.steps t i (fun j => (st j).ths[t]? = some pc) ht (fun j _ hq => ready_next (not_aborted h j) hq hp)
    (fun j _ hq hne => by rw [other (u := (lbl j).1) (a := (lbl j).2) (h.next j) hne]; exact hq)
  obtain ⟨_, pc', hpc, hst⟩ := step_lstep (t := (lbl j).1) (a := (lbl j).2) (h.next j)
  rw [hl] at hpc hst
  rw [hq] at hpc; cases hpc
  exact ⟨j, hj, hst, hq⟩

theorem flag_two (h : Endless step (init n) st lbl ev) {i : Nat} (hf : (st i).flag = 2) : ∀ j, i ≤ j → (st j).flag = 2 :=
  from_on hf fun j _ hf => by
    obtain ⟨_, pc', hpc, hst⟩ := step_lstep (t := (lbl j).1) (a := (lbl j).2) (h.next j)
    revert hst
    generalize st (j + 1) = s', ev j = es
    intro hst
    cases hst <;> first | exact hf | rfl | (rename_i h0; rw [hf] at h0; cases h0)

/-- A thread about to use the manager does so. -/
theorem from_ready (h : Endless step (init n) st lbl ev) (hs : Scheduled step Next st lbl) {t i : Nat} (ht : (st i).ths[t]? = some .ready) :
    ∃ j, i ≤ j ∧ ∃ p, Ev.proceeded t p ∈ ev j := by
  obtain ⟨j, hj, hst, _⟩ := goes h hs ht (by decide)
  refine ⟨j, hj, ?_⟩
  revert hst; generalize st (j + 1) = s', ev j = es; intro hst
  cases hst
  exact ⟨_, List.mem_singleton.2 rfl⟩

theorem from_publish (h : Endless step (init n) st lbl ev) (hs : Scheduled step Next st lbl) {t i : Nat} (ht : (st i).ths[t]? = some .publish) :
    ∃ j, i ≤ j ∧ (st (j + 1)).ths[t]? = some .ready ∧ (st (j + 1)).flag = 2 ∧ ∃ p, Ev.done t p ∈ ev j := by
  obtain ⟨j, hj, hst, hq⟩ := goes h hs ht (by decide)
  refine ⟨j, hj, ?_⟩
  revert hst; generalize st (j + 1) = s', ev j = es; intro hst
  cases hst
  exact ⟨get_set_self hq, rfl, _, List.mem_singleton.2 rfl⟩

theorem from_tls (h : Endless step (init n) st lbl ev) (hs : Scheduled step Next st lbl) {t i : Nat} (ht : (st i).ths[t]? = some .tls) :
    ∃ j, i ≤ j ∧ (st j).ths[t]? = some .publish := by
  obtain ⟨j, hj, hst, hq⟩ := goes h hs ht (by decide)
  refine ⟨j + 1, by omega, ?_⟩
  have ha := not_aborted h (j + 1)
  revert hst ha; generalize st (j + 1) = s', ev j = es; intro hst ha
  cases hst
  · exact get_set_self hq
  · cases ha

theorem from_construct (h : Endless step (init n) st lbl ev) (hs : Scheduled step Next st lbl) {t i : Nat} (ht : (st i).ths[t]? = some .construct) :
    ∃ j, i ≤ j ∧ (st j).ths[t]? = some .tls := by
  obtain ⟨j, hj, hst, hq⟩ := goes h hs ht (by decide)
  refine ⟨j + 1, by omega, ?_⟩
  have ha := not_aborted h (j + 1)
  revert hst ha; generalize st (j + 1) = s', ev j = es; intro hst ha
  cases hst
  · exact get_set_self hq
  · cases ha

/-- Whoever initialises finishes. -/
theorem from_crit (h : Endless step (init n) st lbl ev) (hs : Scheduled step Next st lbl) {t i : Nat} {pc : PC} (ht : (st i).ths[t]? = some pc)
    (hc : pc.crit = true) : ∃ j, i ≤ j ∧ (st (j + 1)).ths[t]? = some .ready ∧ (st (j + 1)).flag = 2 ∧ ∃ p, Ev.done t p ∈ ev j := by
  have tls : ∀ i, (st i).ths[t]? = some .tls → ∃ j, i ≤ j ∧ (st (j + 1)).ths[t]? = some .ready ∧ (st (j + 1)).flag = 2 ∧ ∃ p, Ev.done t p ∈ ev j := by
    intro i ht
    obtain ⟨j, hj, h1⟩ := from_tls h hs ht
    obtain ⟨k, hk, h2⟩ := from_publish h hs h1
    exact ⟨k, by omega, h2⟩
  cases pc <;> simp only [PC.crit, Bool.false_eq_true] at hc
  · obtain ⟨j, hj, h1⟩ := from_construct h hs ht
    obtain ⟨k, hk, h2⟩ := tls j h1
    exact ⟨k, by omega, h2⟩
  · exact tls i ht
  · exact from_publish h hs ht

/-- After the initialisation every call ends. -/
theorem from_two (h : Endless step (init n) st lbl ev) (hs : Scheduled step Next st lbl) {t i : Nat} {pc : PC} (ht : (st i).ths[t]? = some pc)
    (hp : pc ≠ .idle) (hf : (st i).flag = 2) : ∃ j, i ≤ j ∧ ∃ p, Ev.proceeded t p ∈ ev j := by
  have two := flag_two h hf
  have cas : ∀ j, i ≤ j → (st j).ths[t]? = some .cas → ∃ k, j ≤ k ∧ ∃ p, Ev.proceeded t p ∈ ev k := by
    intro j hj ht
    obtain ⟨k, hk, hst, hq⟩ := goes h hs ht (by decide)
    have h2 := two k (by omega)
    have : (st (k + 1)).ths[t]? = some .ready := by
      revert hst; generalize st (k + 1) = s', ev k = es; intro hst
      cases hst with
      | casBegin h0 => rw [h2] at h0; cases h0
      | casDone => exact get_set_self hq
      | casSpin _ h0 => exact absurd h2 h0
    obtain ⟨l, hl, r⟩ := from_ready h hs this
    exact ⟨l, by omega, r⟩
  have crit : pc.crit = true → ∃ j, i ≤ j ∧ ∃ p, Ev.proceeded t p ∈ ev j := fun hc => by
    obtain ⟨j, hj, h1, _⟩ := from_crit h hs ht hc
    obtain ⟨k, hk, r⟩ := from_ready h hs h1
    exact ⟨k, by omega, r⟩
  cases pc with
  | idle => exact absurd rfl hp
  | load =>
    obtain ⟨k, hk, hst, hq⟩ := goes h hs ht (by decide)
    have : (st (k + 1)).ths[t]? = some .ready ∨ (st (k + 1)).ths[t]? = some .cas := by
      revert hst; generalize st (k + 1) = s', ev k = es; intro hst
      cases hst with
      | loadDone => exact .inl (get_set_self hq)
      | loadElse => exact .inr (get_set_self hq)
    rcases this with h1 | h1
    · obtain ⟨l, hl, r⟩ := from_ready h hs h1
      exact ⟨l, by omega, r⟩
    · obtain ⟨l, hl, r⟩ := cas (k + 1) (by omega) h1
      exact ⟨l, by omega, r⟩
  | cas => exact cas i (Nat.le_refl _) ht
  | ready => exact from_ready h hs ht
  | construct => exact crit rfl
  | tls => exact crit rfl
  | publish => exact crit rfl

/-- An initialisation that is needed takes place. -/
theorem flag_set (h : Endless step (init n) st lbl ev) (hs : Scheduled step Next st lbl) {t i : Nat} {pc : PC} (ht : (st i).ths[t]? = some pc)
    (hp : pc ≠ .idle) : (∃ j, i ≤ j ∧ (st j).flag = 2 ∧ ∃ pc', (st j).ths[t]? = some pc' ∧ pc' ≠ .idle) := by
  have crit : ∀ j, i ≤ j → ∀ pc', (st j).ths[t]? = some pc' → pc'.crit = true → ∃ k, i ≤ k ∧ (st k).flag = 2 ∧ ∃ pc', (st k).ths[t]? = some pc' ∧ pc' ≠ .idle := by
    intro j hj pc' hq hc
    obtain ⟨k, hk, h1, h2, _⟩ := from_crit h hs hq hc
    exact ⟨k + 1, by omega, h2, _, h1, by decide⟩
  have cas : ∀ j, i ≤ j → (st j).ths[t]? = some .cas → ∃ k, i ≤ k ∧ (st k).flag = 2 ∧ ∃ pc', (st k).ths[t]? = some pc' ∧ pc' ≠ .idle := by
    intro j hj ht
    obtain ⟨k, hk, hst, hq⟩ := goes h hs ht (by decide)
    have key : (st (k + 1)).ths[t]? = some .construct ∨ (st k).flag = 2 ∨ ((st k).flag ≠ 0 ∧ (st k).flag ≠ 2) := by
      revert hst; generalize st (k + 1) = s', ev k = es; intro hst
      cases hst with
      | casBegin => exact .inl (get_set_self hq)
      | casDone h2 => exact .inr (.inl h2)
      | casSpin h0 h2 => exact .inr (.inr ⟨h0, h2⟩)
    rcases key with h1 | h2 | ⟨h0, h2⟩
    · exact crit (k + 1) (by omega) _ h1 rfl
    · exact ⟨k, by omega, h2, _, hq, by decide⟩
    · obtain ⟨tr, hex⟩ := h.reachable k
      obtain ⟨p, _, P⟩ := exec_inv hex
      have hr := P.rel
      cases p with
      | fresh => exact absurd hr h0
      | complete => exact absurd hr.1 h2
      | running u =>
        obtain ⟨pc', hu, hc⟩ := P.run u rfl
        obtain ⟨l, hl, h3, h4, _⟩ := from_crit h hs hu hc
        have two := flag_two h h4
        -- the thread is still at the loop at the end of the initialisation, or it was there when the flag changed
        by_cases hst : ∃ x, k ≤ x ∧ x ≤ l + 1 ∧ (st x).flag = 2 ∧ (st x).ths[t]? = some .cas
        · obtain ⟨x, hx, _, hx2, hxt⟩ := hst
          exact ⟨x, by omega, hx2, _, hxt, by decide⟩
        · exfalso
          have still : ∀ x, k ≤ x → x ≤ l + 1 → (st x).ths[t]? = some .cas ∧ (st x).flag = 1 := by
            intro x hx
            obtain ⟨d, rfl⟩ := Nat.exists_eq_add_of_le hx
            induction d with
            | zero => exact fun _ => ⟨hq, hr⟩
            | succ d ih =>
              intro hle
              obtain ⟨ic, i1⟩ := ih (by omega) (by omega)
              have hcas : (st (k + d + 1)).ths[t]? = some .cas := by
                by_cases he : (lbl (k + d)).1 = t
                · obtain ⟨_, pc', hpc, hst'⟩ := step_lstep (t := (lbl (k + d)).1) (a := (lbl (k + d)).2) (h.next (k + d))
                  rw [he] at hpc hst'
                  rw [ic] at hpc; cases hpc
                  revert hst'; generalize st (k + d + 1) = s', ev (k + d) = es; intro hst'
                  cases hst' with
                  | casBegin h0 => rw [i1] at h0; cases h0
                  | casDone h0 => rw [i1] at h0; cases h0
                  | casSpin => exact get_set_self ic
                · rw [other (u := (lbl (k + d)).1) (a := (lbl (k + d)).2) (h.next (k + d)) he]; exact ic
              refine ⟨hcas, ?_⟩
              obtain ⟨_, pc', hpc, hst'⟩ := step_lstep (t := (lbl (k + d)).1) (a := (lbl (k + d)).2) (h.next (k + d))
              have hne : (st (k + d + 1)).flag ≠ 2 := fun h2 => hst ⟨k + d + 1, by omega, hle, h2, hcas⟩
              revert hst' hne; generalize st (k + d + 1) = s', ev (k + d) = es; intro hst' hne
              cases hst' <;> first | exact i1 | rfl | exact absurd rfl hne
          have := (still (l + 1) (by omega) (Nat.le_refl _)).2
          rw [h4] at this; cases this
  cases pc with
  | idle => exact absurd rfl hp
  | load =>
    obtain ⟨k, hk, hst, hq⟩ := goes h hs ht (by decide)
    have : (st k).flag = 2 ∨ (st (k + 1)).ths[t]? = some .cas := by
      revert hst; generalize st (k + 1) = s', ev k = es; intro hst
      cases hst with
      | loadDone h2 => exact .inl h2
      | loadElse => exact .inr (get_set_self hq)
    rcases this with h1 | h1
    · exact ⟨k, by omega, h1, _, hq, by decide⟩
    · exact cas (k + 1) (by omega) h1
  | cas => exact cas i (Nat.le_refl _) ht
  | ready =>
    obtain ⟨tr, hex⟩ := h.reachable i
    obtain ⟨p, _, P⟩ := exec_inv hex
    obtain ⟨k, hk⟩ := P.ready t ht
    subst hk
    exact ⟨i, Nat.le_refl _, P.rel.1, _, ht, by decide⟩
  | construct => exact crit i (Nat.le_refl _) _ ht rfl
  | tls => exact crit i (Nat.le_refl _) _ ht rfl
  | publish => exact crit i (Nat.le_refl _) _ ht rfl

end Verif.TssOnce

namespace Verif.TimerInit

variable {c n : Nat} {st : Nat → St} {lbl : Nat → Nat × Act} {ev : Nat → List Ev}

/-- `initialized` of module `m`. -/
def flagOf (s : St) (m : Nat) : Option Nat := s.mods[m]?.map Mod.flag

/-- Threads work on modules that exist. -/
def Within (s : St) : Prop := ∀ (t : Nat) (pc : PC) (m : Nat), s.ths[t]? = some pc → pc.mod = some m → m < s.mods.length

theorem within_step {s s' : St} {t : Nat} {a : Act} {es : List Ev} (h : step s (t, a) = some (s', es)) (W : Within s) : Within s' := by
  obtain ⟨pc, ht, hl⟩ := step_lstep h
  have hold := W t pc
  cases hl
  all_goals
    intro u q m hu hm
    rcases get_set_cases hu with ⟨rfl, rfl⟩ | ⟨_, hu⟩
    · first
        | (cases hm; done)
        | (cases hm; simp only [List.length_set]; first | assumption | exact hold _ ht rfl)
    · simp only [List.length_set]; exact W u q m hu hm

theorem within (h : Endless step (init c n) st lbl ev) (j : Nat) : Within (st j) := by
  obtain ⟨tr, hex⟩ := h.reachable j
  refine hex.invariant' Within ?_ fun s l s' es W hst => within_step (t := l.1) (a := l.2) hst W
  intro t pc m ht hm
  rw [get_replicate ht] at hm; cases hm

theorem ready_next {s : St} {t m : Nat} {pc : PC} (W : Within s) (ht : s.ths[t]? = some pc) (hp : pc.mod = some m) : Ready step Next s t := by
  obtain ⟨d, hd⟩ : ∃ d, s.mods[m]? = some d := ⟨s.mods[m]'(W t pc m ht hp), List.getElem?_eq_getElem _⟩
  cases pc with
  | idle => cases hp
  | load => cases hp; exact ⟨.stale, _, trivial, by simp only [step, ht, hd]; rfl⟩
  | cas =>
    cases hp
    rcases Classical.em (d.flag = 0) with h0 | h0
    · exact ⟨.go, _, trivial, by simp only [step, ht, hd, h0]; rfl⟩
    · rcases Classical.em (d.flag = 2) with h2 | h2
      · exact ⟨.go, _, trivial, by simp only [step, ht, hd, h2]; rfl⟩
      · exact ⟨.go, _, trivial, by simp only [step, ht, hd, if_neg h0, if_neg h2]; rfl⟩
  | openSem => cases hp; exact ⟨.fault, _, trivial, by simp only [step, ht, hd]; rfl⟩
  | alloc => exact ⟨.fault, _, trivial, by simp only [step, ht]; rfl⟩
  | create => cases hp; exact ⟨.fault, _, trivial, by simp only [step, ht, hd]; rfl⟩
  | free => exact ⟨.go, _, trivial, by simp only [step, ht]; rfl⟩
  | query => exact ⟨.fault, _, trivial, by simp only [step, ht]; rfl⟩
  | alloc2 => exact ⟨.fault, _, trivial, by simp only [step, ht]; rfl⟩
  | setKey => cases hp; exact ⟨.go, _, trivial, by simp only [step, ht, hd]; rfl⟩
  | publish => cases hp; exact ⟨.go, _, trivial, by simp only [step, ht, hd]; rfl⟩
  | fail => cases hp; exact ⟨.go, _, trivial, by simp only [step, ht, hd]; rfl⟩
  | ready => cases hp; exact ⟨.go, _, trivial, by simp only [step, ht, hd]; rfl⟩

theorem other {s s' : St} {u t : Nat} {a : Act} {es : List Ev} (h : step s (u, a) = some (s', es)) (hu : u ≠ t) : s'.ths[t]? = s.ths[t]? := by
  obtain ⟨pc, _, hl⟩ := step_lstep h
  cases hl <;> exact get_set_ne hu

/-- A thread inside takes its next step. -/
theorem goes (h : Endless step (init c n) st lbl ev) (hs : Scheduled step Next st lbl) {t i m : Nat} {pc : PC} (ht : (st i).ths[t]? = some pc)
    (hp : pc.mod = some m) : ∃ j a, i ≤ j ∧ LStep (st j) t pc a (st (j + 1)) (ev j) ∧ (st j).ths[t]? = some pc := by
  obtain ⟨j, hj, hq, hl⟩ := hs.steps t i (fun j => (st j).ths[t]? = some pc) ht (fun j _ hq => ready_next (within h j) hq hp)
    (fun j _ hq hne => by rw [other (u := (lbl j).1) (a := (lbl j).2) (h.next j) hne]; exact hq)
  obtain ⟨pc', hpc, hst⟩ := step_lstep (t := (lbl j).1) (a := (lbl j).2) (h.next j)
  rw [hl] at hpc hst
  rw [hq] at hpc; cases hpc
  exact ⟨j, _, hj, hst, hq⟩

theorem flagOf_set {s : St} {m m' : Nat} {d d' : Mod} {ths : List PC} {sem : Option Nat} {live : List Nat} (hd : s.mods[m']? = some d) :
    flagOf ⟨s.mods.set m' d', sem, live, ths⟩ m = if m' = m then some d'.flag else flagOf s m := by
  unfold flagOf
  split
  · next he => subst he; rw [get_set_self hd]; rfl
  · next he => rw [get_set_ne he]

/-- What becomes of the flag. -/
theorem flag_step {tr : List Ev} {s s' : St} {t m : Nat} {a : Act} {es : List Ev} (h : step s (t, a) = some (s', es)) (I : Inv tr s) :
    (flagOf s m = some 2 → flagOf s' m = some 2) ∧ (flagOf s m = some 1 → flagOf s' m = some 1 ∨ flagOf s' m = some 2 ∨ .threw t m ∈ es) := by
  obtain ⟨pc, ht, hl⟩ := step_lstep h
  cases hl
  case casBegin m' d hd h0 =>
    rw [flagOf_set hd]
    split
    · next he => subst he; simp [flagOf, hd, h0]
    · exact ⟨id, .inl⟩
  case publish m' d hd =>
    rw [flagOf_set hd]
    split
    · exact ⟨fun _ => rfl, fun _ => .inr (.inl rfl)⟩
    · exact ⟨id, .inl⟩
  case fail m' d hd =>
    rw [flagOf_set hd]
    split
    · next he =>
      subst he
      refine ⟨fun h2 => ?_, fun _ => .inr (.inr (List.mem_singleton.2 rfl))⟩
      exfalso
      obtain ⟨p, _, M⟩ := I m' d hd
      have hp := M.crit t _ ht (by simp [PC.crit])
      have hr := M.rel
      rw [hp] at hr
      simp only [flagOf, hd, Option.map_some, Option.some.injEq] at h2
      have hr1 : d.flag = 1 := hr
      omega
    · exact ⟨id, .inl⟩
  all_goals first
    | exact ⟨id, .inl⟩
    | (rename_i d hd
       rw [flagOf_set hd]
       split
       · next he => subst he; simp [flagOf, hd, Mod.noHold]; intro h1; exact .inl h1
       · exact ⟨id, .inl⟩)
    | (rename_i d hd _
       rw [flagOf_set hd]
       split
       · next he => subst he; simp [flagOf, hd, Mod.hold, Mod.noHold]; intro h1; exact .inl h1
       · exact ⟨id, .inl⟩)

theorem flag_two_on (h : Endless step (init c n) st lbl ev) {i m : Nat} (hf : flagOf (st i) m = some 2) : ∀ j, i ≤ j → flagOf (st j) m = some 2 :=
  from_on hf fun j _ hf => by
    obtain ⟨tr, hex⟩ := h.reachable j
    exact (flag_step (t := (lbl j).1) (a := (lbl j).2) (h.next j) (exec_inv hex)).1 hf

/-- How far the initialisation is from its end. -/
def PC.stage : PC → Nat
  | .openSem _ => 7
  | .alloc _ => 6
  | .create _ _ => 5
  | .free _ _ => 4
  | .query _ => 3
  | .alloc2 _ => 2
  | .setKey _ _ => 1
  | _ => 0

theorem mod_of_crit {pc : PC} {m : Nat} (hc : pc.crit m = true) : pc.mod = some m := by
  cases pc <;> simp only [PC.crit, Bool.false_eq_true, decide_eq_true_eq] at hc <;> subst hc <;> rfl

/-- A step of the thread that initialises. -/
theorem crit_step {s s' : St} {t m : Nat} {pc : PC} {a : Act} {es : List Ev} (hl : LStep s t pc a s' es) (ht : s.ths[t]? = some pc) (hc : pc.crit m = true) :
    (∃ pc', s'.ths[t]? = some pc' ∧ pc'.crit m = true ∧ pc'.stage < pc.stage) ∨ (∃ m', pc = .alloc m' ∨ pc = .alloc2 m') ∧ s'.ths[t]? = some (.fail m) ∨
      (s'.ths[t]? = some (.ready m) ∧ flagOf s' m = some 2 ∧ ∃ k, .done t m k ∈ es) ∨ .threw t m ∈ es := by
  cases hl <;> simp only [PC.crit, Bool.false_eq_true, decide_eq_true_eq] at hc <;> try subst hc
  case publish d hd =>
    refine .inr (.inr (.inl ⟨get_set_self ht, ?_, _, List.mem_singleton.2 rfl⟩))
    rw [flagOf_set hd, if_pos rfl]
  case fail => exact .inr (.inr (.inr (List.mem_singleton.2 rfl)))
  all_goals exact .inl ⟨_, get_set_self ht, by simp [PC.crit], by simp [PC.stage]⟩

/-- Whoever initialises comes to an end. -/
theorem from_crit (h : Endless step (init c n) st lbl ev) (hs : Scheduled step Next st lbl) {m t : Nat} :
    ∀ (r i : Nat) (pc : PC), pc.stage ≤ r → (st i).ths[t]? = some pc → pc.crit m = true →
      ∃ j, i ≤ j ∧ ((st (j + 1)).ths[t]? = some (.ready m) ∧ flagOf (st (j + 1)) m = some 2 ∧ (∃ k, .done t m k ∈ ev j) ∨ .threw t m ∈ ev j) := by
  intro r
  induction r with
  | zero =>
    intro i pc hr ht hc
    obtain ⟨j, a, hj, hst, hq⟩ := goes h hs ht (mod_of_crit hc)
    rcases crit_step hst hq hc with ⟨_, _, _, h1⟩ | ⟨⟨m', rfl | rfl⟩, _⟩ | h1 | h1
    · omega
    · simp [PC.stage] at hr
    · simp [PC.stage] at hr
    · exact ⟨j, hj, .inl h1⟩
    · exact ⟨j, hj, .inr h1⟩
  | succ r ih =>
    intro i pc hr ht hc
    obtain ⟨j, a, hj, hst, hq⟩ := goes h hs ht (mod_of_crit hc)
    rcases crit_step hst hq hc with ⟨pc', h1, h2, h3⟩ | ⟨_, h1⟩ | h1 | h1
    · obtain ⟨k, hk, r⟩ := ih (j + 1) pc' (by omega) h1 h2
      exact ⟨k, by omega, r⟩
    · obtain ⟨k, hk, r⟩ := ih (j + 1) (.fail m) (by simp [PC.stage]) h1 (by simp [PC.crit])
      exact ⟨k, by omega, r⟩
    · exact ⟨j, hj, .inl h1⟩
    · exact ⟨j, hj, .inr h1⟩

theorem from_ready (h : Endless step (init c n) st lbl ev) (hs : Scheduled step Next st lbl) {t i m : Nat} (ht : (st i).ths[t]? = some (.ready m)) :
    ∃ j, i ≤ j ∧ ∃ k, Ev.proceeded t m k ∈ ev j := by
  obtain ⟨j, a, hj, hst, _⟩ := goes h hs ht (m := m) rfl
  refine ⟨j, hj, ?_⟩
  revert hst; generalize st (j + 1) = s', ev j = es; intro hst
  cases hst
  exact ⟨_, List.mem_singleton.2 rfl⟩

/-- The call of thread `t` ends in step `j`. -/
def Ends (ev : Nat → List Ev) (t m j : Nat) : Prop := (∃ k, .proceeded t m k ∈ ev j) ∨ .threw t m ∈ ev j

theorem crit_ends (h : Endless step (init c n) st lbl ev) (hs : Scheduled step Next st lbl) {m t i : Nat} {pc : PC} (ht : (st i).ths[t]? = some pc)
    (hc : pc.crit m = true) : ∃ j, i ≤ j ∧ Ends ev t m j := by
  obtain ⟨j, hj, ⟨h1, _⟩ | h1⟩ := from_crit h hs _ i pc (Nat.le_refl _) ht hc
  · obtain ⟨k, hk, r⟩ := from_ready h hs h1
    exact ⟨k, by omega, .inl r⟩
  · exact ⟨j, hj, .inr h1⟩

/-- At the loop, unless initialisations fail again and again. -/
theorem from_cas (h : Endless step (init c n) st lbl ev) (hs : Scheduled step Next st lbl) {m t i : Nat}
    (hno : ∀ j, i ≤ j → ∀ u, .threw u m ∉ ev j) (ht : (st i).ths[t]? = some (.cas m)) : ∃ j, i ≤ j ∧ Ends ev t m j := by
  obtain ⟨k, a, hk, hst, hq⟩ := goes h hs ht (m := m) rfl
  have key : (st (k + 1)).ths[t]? = some (.openSem m) ∨ (st (k + 1)).ths[t]? = some (.ready m) ∨ (∃ d, (st k).mods[m]? = some d ∧ d.flag ≠ 0 ∧ d.flag ≠ 2) := by
    revert hst; generalize st (k + 1) = s', ev k = es; intro hst
    cases hst with
    | casBegin => exact .inl (get_set_self hq)
    | casDone => exact .inr (.inl (get_set_self hq))
    | casSpin hd h0 h2 => exact .inr (.inr ⟨_, hd, h0, h2⟩)
  rcases key with h1 | h1 | ⟨d, hd, h0, h2⟩
  · obtain ⟨l, hl, r⟩ := crit_ends h hs (m := m) h1 (by simp [PC.crit])
    exact ⟨l, by omega, r⟩
  · obtain ⟨l, hl, r⟩ := from_ready h hs h1
    exact ⟨l, by omega, .inl r⟩
  obtain ⟨tr, hex⟩ := h.reachable k
  obtain ⟨p, _, M⟩ := exec_inv hex m d hd
  have hr := M.rel
  cases p with
  | fresh => exact absurd hr h0
  | complete => exact absurd hr.1 h2
  | running u =>
    obtain ⟨pc', hu, hc⟩ := M.run u rfl
    obtain ⟨l, hl, ⟨_, h4, _⟩ | h4⟩ := from_crit h hs _ k pc' (Nat.le_refl _) hu hc
    rotate_left
    · exact absurd h4 (hno l (by omega) u)
    -- the flag is set while the thread is at the loop
    obtain ⟨x, hx, hx2, hxt⟩ : ∃ x, k ≤ x ∧ flagOf (st x) m = some 2 ∧ (st x).ths[t]? = some (.cas m) := by
      refine Classical.byContradiction fun hne => ?_
      have still : ∀ x, k ≤ x → (st x).ths[t]? = some (.cas m) ∧ flagOf (st x) m = some 1 := by
        refine from_on ⟨hq, by simp only [flagOf, hd, Option.map_some]; rw [show d.flag = 1 from hr]⟩ ?_
        rintro x hx ⟨ic, i1⟩
        have hcas : (st (x + 1)).ths[t]? = some (.cas m) := by
          by_cases he : (lbl x).1 = t
          · obtain ⟨pc', hpc, hst'⟩ := step_lstep (t := (lbl x).1) (a := (lbl x).2) (h.next x)
            rw [he] at hpc hst'
            rw [ic] at hpc; cases hpc
            revert hst'; generalize st (x + 1) = s', ev x = es, (lbl x).2 = a; intro hst'
            cases hst' with
            | casBegin hd' h0 => simp [flagOf, hd', h0] at i1
            | casDone hd' h0 => simp [flagOf, hd', h0] at i1
            | casSpin => exact get_set_self ic
          · rw [other (u := (lbl x).1) (a := (lbl x).2) (h.next x) he]; exact ic
        obtain ⟨tr', hex'⟩ := h.reachable x
        rcases (flag_step (t := (lbl x).1) (a := (lbl x).2) (m := m) (h.next x) (exec_inv hex')).2 i1 with h5 | h5 | h5
        · exact ⟨hcas, h5⟩
        · exact absurd ⟨x + 1, by omega, h5, hcas⟩ hne
        · exact absurd h5 (hno x (by omega) _)
      have := (still (l + 1) (by omega)).2
      rw [h4] at this; cases this
    obtain ⟨y, a', hy, hst', hq'⟩ := goes h hs hxt (m := m) rfl
    have two := flag_two_on h hx2 y hy
    have : (st (y + 1)).ths[t]? = some (.ready m) := by
      revert hst'; generalize st (y + 1) = s', ev y = es; intro hst'
      cases hst' with
      | casBegin hd' h0 => simp [flagOf, hd', h0] at two
      | casDone => exact get_set_self hq'
      | casSpin hd' _ h0 => exact absurd (by simpa [flagOf, hd'] using two) h0
    obtain ⟨z, hz, r⟩ := from_ready h hs this
    exact ⟨z, by omega, .inl r⟩

/-- Any call in progress. -/
theorem call_ends (h : Endless step (init c n) st lbl ev) (hs : Scheduled step Next st lbl) {m t i : Nat} {pc : PC}
    (hno : ∀ j, i ≤ j → ∀ u, .threw u m ∉ ev j) (ht : (st i).ths[t]? = some pc) (hp : pc.mod = some m) : ∃ j, i ≤ j ∧ Ends ev t m j := by
  by_cases hc : pc.crit m = true
  · exact crit_ends h hs ht hc
  cases pc with
  | idle => cases hp
  | load =>
    cases hp
    obtain ⟨k, a, hk, hst, hq⟩ := goes h hs ht (m := m) rfl
    have : (st (k + 1)).ths[t]? = some (.ready m) ∨ (st (k + 1)).ths[t]? = some (.cas m) := by
      revert hst; generalize st (k + 1) = s', ev k = es; intro hst
      cases hst with
      | loadDone => exact .inl (get_set_self hq)
      | loadElse => exact .inr (get_set_self hq)
    rcases this with h1 | h1
    · obtain ⟨l, hl, r⟩ := from_ready h hs h1
      exact ⟨l, by omega, .inl r⟩
    · obtain ⟨l, hl, r⟩ := from_cas h hs (fun j hj => hno j (by omega)) h1
      exact ⟨l, by omega, r⟩
  | cas => cases hp; exact from_cas h hs hno ht
  | ready =>
    cases hp
    obtain ⟨l, hl, r⟩ := from_ready h hs ht
    exact ⟨l, hl, .inl r⟩
  | _ => cases hp; simp [PC.crit] at hc

/-- A call in progress goes on until it ends. -/
theorem goes_on {s s' : St} {u t m : Nat} {a : Act} {es : List Ev} {pc : PC} (h : step s (u, a) = some (s', es)) (ht : s.ths[t]? = some pc)
    (hp : pc.mod = some m) (he : ¬ ((∃ k, .proceeded t m k ∈ es) ∨ .threw t m ∈ es)) : ∃ pc', s'.ths[t]? = some pc' ∧ pc'.mod = some m := by
  by_cases hu : u = t
  · subst hu
    obtain ⟨pc', hpc, hl⟩ := step_lstep h
    rw [ht] at hpc; cases hpc
    cases hl <;> first
      | (cases hp; done)
      | (cases hp; exact ⟨_, get_set_self ht, rfl⟩)
      | (cases hp; exact absurd (.inr (List.mem_singleton.2 rfl)) he)
      | (cases hp; exact absurd (.inl ⟨_, List.mem_singleton.2 rfl⟩) he)
  · exact ⟨pc, by rw [other h hu]; exact ht, hp⟩

end Verif.TimerInit

namespace Verif.WinGetEvent

variable {n : Nat} {st : Nat → St} {lbl : Nat → Nat × Act} {ev : Nat → List Ev}

theorem ready_next {s : St} {t : Nat} {pc : PC} (ht : s.ths[t]? = some pc) (hp : pc ≠ .idle) : Ready step Next s t := by
  cases pc with
  | idle => exact absurd rfl hp
  | load => exact ⟨.stale, _, trivial, by simp only [step, ht]; rfl⟩
  | create => exact ⟨.osFail, _, trivial, by simp only [step, ht]; rfl⟩
  | cas h =>
    rcases Classical.em (s.event = 0) with h0 | h0
    · exact ⟨.go, _, trivial, by simp only [step, ht, h0]; rfl⟩
    · exact ⟨.go, _, trivial, by simp only [step, ht, if_neg h0]; rfl⟩
  | close h o => exact ⟨.go, _, trivial, by simp only [step, ht]; rfl⟩

theorem other {s s' : St} {u t : Nat} {a : Act} {es : List Ev} (h : step s (u, a) = some (s', es)) (hu : u ≠ t) : s'.ths[t]? = s.ths[t]? := by
  simp only [step] at h
  split at h
  · cases h
  split at h
  all_goals first
    | (cases h; done)
    | (obtain ⟨rfl, rfl⟩ := Prod.mk.inj (Option.some.inj h); exact get_set_ne hu)
    | (split at h <;> first | (cases h; done) | (obtain ⟨rfl, rfl⟩ := Prod.mk.inj (Option.some.inj h); exact get_set_ne hu))

/-- How far the call is from its end. -/
def PC.stage : PC → Nat
  | .load => 4
  | .create => 3
  | .cas _ => 2
  | .close _ _ => 1
  | .idle => 0

theorem own_step {s s' : St} {t : Nat} {a : Act} {es : List Ev} {pc : PC} (h : step s (t, a) = some (s', es)) (ht : s.ths[t]? = some pc) (hp : pc ≠ .idle) :
    (∃ pc', s'.ths[t]? = some pc' ∧ pc' ≠ .idle ∧ pc'.stage < pc.stage) ∨ (∃ e, .returned t e ∈ es) ∨ .threw t ∈ es := by
  simp only [step, ht] at h
  split at h
  · exact absurd rfl hp
  · split at h <;> (obtain ⟨rfl, rfl⟩ := Prod.mk.inj (Option.some.inj h))
    · exact .inl ⟨_, get_set_self ht, by simp, by simp [PC.stage]⟩
    · exact .inr (.inl ⟨_, List.mem_singleton.2 rfl⟩)
  · obtain ⟨rfl, rfl⟩ := Prod.mk.inj (Option.some.inj h)
    exact .inl ⟨_, get_set_self ht, by simp, by simp [PC.stage]⟩
  · split at h
    · cases h
    · obtain ⟨rfl, rfl⟩ := Prod.mk.inj (Option.some.inj h)
      exact .inl ⟨_, get_set_self ht, by simp, by simp [PC.stage]⟩
  · obtain ⟨rfl, rfl⟩ := Prod.mk.inj (Option.some.inj h)
    exact .inr (.inr (by simp))
  · split at h <;> (obtain ⟨rfl, rfl⟩ := Prod.mk.inj (Option.some.inj h))
    · exact .inr (.inl ⟨_, List.mem_singleton.2 rfl⟩)
    · exact .inl ⟨_, get_set_self ht, by simp, by simp [PC.stage]⟩
  · obtain ⟨rfl, rfl⟩ := Prod.mk.inj (Option.some.inj h)
    exact .inr (.inl ⟨_, List.mem_cons_of_mem _ (List.mem_singleton.2 rfl)⟩)
  · cases h

theorem call_ends (h : Endless step (init n) st lbl ev) (hs : Scheduled step Next st lbl) {t : Nat} :
    ∀ (r i : Nat) (pc : PC), pc.stage ≤ r → (st i).ths[t]? = some pc → pc ≠ .idle → ∃ j, i ≤ j ∧ ((∃ e, .returned t e ∈ ev j) ∨ .threw t ∈ ev j) := by
  intro r
  induction r with
  | zero => intro i pc hr _ hp; cases pc <;> simp [PC.stage] at hr; exact absurd rfl hp
  | succ r ih =>
    intro i pc hr ht hp
    obtain ⟨j, hj, hq, hl⟩ := hs.steps t i (fun j => (st j).ths[t]? = some pc) ht (fun j _ hq => ready_next hq hp)
      (fun j _ hq hne => by rw [other (u := (lbl j).1) (a := (lbl j).2) (h.next j) hne]; exact hq)
    have hst := h.next j
    rw [show lbl j = (t, (lbl j).2) by rw [← hl]] at hst
    rcases own_step hst hq hp with ⟨pc', h1, h2, h3⟩ | h1
    · obtain ⟨k, hk, r⟩ := ih (j + 1) pc' (by omega) h1 h2
      exact ⟨k, by omega, r⟩
    · exact ⟨j, hj, h1⟩

end Verif.WinGetEvent
