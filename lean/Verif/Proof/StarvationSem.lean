import Verif.Proof.AutoEventSem
import Verif.Proof.Endless

/-!
# `auto_reset_event` over a semaphore: when a wait is not passed over for ever (C114)
-/

namespace Verif.AutoSem

open Verif.Atomic (Kind Op Ev One)
open Verif.Spec.Endless

/-- The steps that depend neither on the user nor on the clock nor on a failure of the system. -/
def Next (_ : St) (a : Act) : Prop := a = .go

/-- Thread `t` executes `wait()`. -/
def InWait (t : Nat) (s : St) : Prop := s.ths[t]? = some (.wAdd .wait) ∨ s.ths[t]? = some (.wSem .wait) ∨ s.ths[t]? = some (.leave (.acq .wait) true)

/-- `wait()` of thread `t` returns or throws. -/
def WaitEnds (t : Nat) (es : List (Ev One)) : Prop := .ret t (.acq .wait) true ∈ es ∨ .threw t (.acq .wait) ∈ es

/-- `post` has done its work. -/
def PC.posted : PC → Bool
  | .leave (.sig _) _ => true
  | _ => false

/-- What other threads are doing is not changed by a step. -/
theorem step_other {s s' : St} {u t : Nat} {a : Act} {es : List (Ev One)} (h : step s (u, a) = some (s', es)) (hne : u ≠ t) : s'.ths[t]? = s.ths[t]? := by
  unfold step at h
  simp only at h
  split at h
  · cases h
  next pc ht =>
  split at h <;> (try split at h) <;> (try split at h) <;> (try cases h) <;> simp only [List.getElem?_set_ne hne]

/-- A call returns by a step of its thread. -/
theorem step_ret {s s' : St} {u t : Nat} {a : Act} {es : List (Ev One)} {op : Op One} {b : Bool} (h : step s (u, a) = some (s', es)) (he : .ret t op b ∈ es) :
    u = t ∧ s.ths[t]? = some (.leave op b) := by
  unfold step at h
  simp only at h
  split at h
  · cases h
  next pc ht =>
  split at h <;> (try split at h) <;> (try split at h) <;> (try cases h) <;> simp at he
  obtain ⟨rfl, rfl, rfl⟩ := he
  exact ⟨rfl, ht⟩

/-- While `m_state` is not negative and nobody creates a permit, no `post` becomes complete; those that are complete return. -/
theorem posted_step {s s' : St} {u : Nat} {a : Act} {es : List (Ev One)} (h : step s (u, a) = some (s', es)) (h0 : 0 ≤ s.state)
    (hp : s.ths[u]? ≠ some .pSem) : s'.ths.countP PC.posted ≤ s.ths.countP PC.posted ∧
      ((∃ t, Ev.ret t (.sig .post) true ∈ es) → s'.ths.countP PC.posted < s.ths.countP PC.posted) := by
  have hseen : (seen s.state).posted = false := by unfold seen; rw [if_pos (show s.state ≥ 0 from h0)]; rfl
  unfold step at h
  simp only at h
  split at h
  · cases h
  next pc ht =>
  have key : ∀ (b : PC) (es' : List (Ev One)), b.posted = false → (∀ t, Ev.ret t (.sig .post) true ∉ es') →
      (s.ths.set u b).countP PC.posted ≤ s.ths.countP PC.posted ∧
      ((∃ t, Ev.ret t (.sig .post) true ∈ es') → (s.ths.set u b).countP PC.posted < s.ths.countP PC.posted) := by
    intro b es' hb he
    have c := countP_set (p := PC.posted) (b := b) ht
    rw [hb] at c
    refine ⟨by simp only [b2n] at c; simp at c; omega, fun ⟨t, h⟩ => absurd h (he t)⟩
  split at h
  · cases h; exact key _ _ rfl (by simp)
  · cases h; exact key _ _ rfl (by simp)
  · cases h; exact key _ _ hseen (by simp)
  · split at h
    · cases h; exact key _ _ rfl (by simp)
    · cases h; exact key _ _ hseen (by simp)
  · cases h; exact key _ _ hseen (by simp)
  · exact absurd ht hp
  · cases h; exact key _ _ rfl (by simp)
  · split at h
    · cases h; exact key _ _ rfl (by simp)
    · split at h
      · cases h; exact key _ _ rfl (by simp)
      · cases h
  · split at h
    · cases h; exact key _ _ rfl (by simp)
    · cases h
  · cases h; exact key _ _ rfl (by simp)
  · cases h; exact key _ _ rfl (by simp)
  · next op res =>
    cases h
    cases op with
    | acq k => exact key _ _ rfl (by simp)
    | sig x =>
      have c := countP_set (p := PC.posted) (b := .idle) ht
      change _ + 1 = _ + 0 at c
      exact ⟨by dsimp only; omega, fun _ => by dsimp only; omega⟩
  · cases h

/-- Permits disappear only when a wait succeeds. -/
theorem sem_step {s s' : St} {u : Nat} {a : Act} {es : List (Ev One)} (h : step s (u, a) = some (s', es)) :
    s.sem ≤ s'.sem ∨ ∃ k, s'.ths[u]? = some (.leave (.acq k) true) := by
  unfold step at h
  simp only at h
  split at h
  · cases h
  next pc ht =>
  have hlt := (List.getElem?_eq_some_iff.mp ht).1
  split at h <;> (try split at h) <;> (try split at h) <;> (try cases h) <;>
    first
    | exact .inl (Nat.le_refl _)
    | exact .inl (Nat.le_succ _)
    | (right; exact ⟨_, List.getElem?_set_self hlt⟩)

section
variable {n : Nat} {st : Nat → St} {lbl : Nat → Nat × Act} {ev : Nat → List (Ev One)} (h : Endless step (init n) st lbl ev)
  (hs : Scheduled step Next st lbl)
include h

theorem keeps {j t : Nat} (hl : (lbl j).1 ≠ t) : (st (j + 1)).ths[t]? = (st j).ths[t]? := by
  have hst := h.next j
  rw [show lbl j = ((lbl j).1, (lbl j).2) from rfl] at hst
  exact step_other hst hl

include hs

/-- A thread whose next step is a simple one takes it. -/
theorem takes {i t : Nat} {pc : PC} (hi : (st i).ths[t]? = some pc) (hr : ∀ s : St, s.ths[t]? = some pc → ∃ r, step s (t, .go) = some r) :
    ∃ j, i ≤ j ∧ (st j).ths[t]? = some pc ∧ (lbl j).1 = t :=
  hs.steps t i (fun j => (st j).ths[t]? = some pc) hi (fun j _ hq => by obtain ⟨r, hr⟩ := hr _ hq; exact ⟨.go, r, rfl, hr⟩)
    (fun j _ hq hl => (keeps h hl).trans hq)

/-- If `post` returns again and again, there are permits again and again. -/
theorem permits
    (hp : Often fun j => ∃ u, Ev.ret u (.sig .post) true ∈ ev j) : Often fun j => 0 < (st j).sem := by
  refine Classical.byContradiction fun hn => ?_
  obtain ⟨m, hm⟩ := not_often hn
  have h0 : ∀ j, m ≤ j → (st j).sem = 0 := fun j hj => by have := hm j hj; omega
  have hq : ∀ j (u : Nat), m ≤ j → (st j).ths[u]? ≠ some .pSem := by
    intro j u hj hu
    obtain ⟨j', hj', hu', hl⟩ := takes h hs hu (fun s hs => ⟨_, by unfold step; simp only [hs]; rfl⟩)
    have hst := h.next j'
    rw [show lbl j' = (u, (lbl j').2) by rw [← hl]] at hst
    generalize (lbl j').2 = a at hst
    have h1 := h0 (j' + 1) (by omega)
    unfold step at hst
    simp only [hu'] at hst
    cases a <;> simp at hst
    rw [← hst.1] at h1
    simp at h1
  have hstate : ∀ j, m ≤ j → 0 ≤ (st j).state := by
    intro j hj
    obtain ⟨tr, hx⟩ := h.reachable j
    have := (inv_exec hx).state
    have hz : (st j).ths.countP PC.posting = 0 := by
      refine List.countP_eq_zero.mpr fun pc hpc hb => ?_
      obtain ⟨u, hu⟩ := List.getElem?_of_mem hpc
      cases pc <;> first | exact hq j u (by omega) hu | exact Bool.noConfusion hb
    rw [h0 j (by omega), hz] at this
    omega
  have hstep : ∀ j, m ≤ j → (st (j + 1)).ths.countP PC.posted ≤ (st j).ths.countP PC.posted ∧
      ((∃ t, Ev.ret t (.sig .post) true ∈ ev j) → (st (j + 1)).ths.countP PC.posted < (st j).ths.countP PC.posted) := by
    intro j hj
    have hst := h.next j
    rw [show lbl j = ((lbl j).1, (lbl j).2) from rfl] at hst
    exact posted_step hst (hstate j hj) (hq j _ (by omega))
  obtain ⟨k, hk, e⟩ := settles (f := fun j => (st j).ths.countP PC.posted) (i := m) fun j hj => (hstep j hj).1
  obtain ⟨j, hj, hu⟩ := hp k
  have := (hstep j (by omega)).2 hu
  have e1 := e j hj
  have e2 := e (j + 1) (by omega)
  omega

/-- `wait()` ends or comes to wait for a permit for ever. -/
theorem wait_cases {t i : Nat} (hi : InWait t (st i)) : (∃ j, i ≤ j ∧ WaitEnds t (ev j)) ∨
    ∃ m, i ≤ m ∧ (∀ j, m ≤ j → (st j).ths[t]? = some (.wSem .wait)) ∧ ∀ j, m ≤ j → (lbl j).1 ≠ t := by
  have leave : ∀ i, (st i).ths[t]? = some (.leave (.acq .wait) true) → ∃ j, i ≤ j ∧ WaitEnds t (ev j) := by
    intro i hi
    obtain ⟨j, hj, hu, hl⟩ := takes h hs hi (fun s hs => ⟨_, by unfold step; simp only [hs]; rfl⟩)
    have hst := h.next j
    rw [show lbl j = (t, (lbl j).2) by rw [← hl]] at hst
    generalize (lbl j).2 = a at hst
    unfold step at hst
    simp only [hu] at hst
    cases a <;> simp at hst
    exact ⟨j, hj, .inl (by rw [← hst.2]; simp)⟩
  have sem : ∀ i, (st i).ths[t]? = some (.wSem .wait) → (∃ j, i ≤ j ∧ WaitEnds t (ev j)) ∨
      ∃ m, i ≤ m ∧ (∀ j, m ≤ j → (st j).ths[t]? = some (.wSem .wait)) ∧ ∀ j, m ≤ j → (lbl j).1 ≠ t := by
    intro i hi
    by_cases hall : ∀ j, i ≤ j → (st j).ths[t]? = some (.wSem .wait) → (lbl j).1 ≠ t
    · have hw : ∀ j, i ≤ j → (st j).ths[t]? = some (.wSem .wait) :=
        from_on (p := fun j => (st j).ths[t]? = some (.wSem .wait)) hi fun j hj hq => (keeps h (hall j hj hq)).trans hq
      exact .inr ⟨i, Nat.le_refl _, hw, fun j hj => hall j hj (hw j hj)⟩
    · refine .inl (Classical.byContradiction fun hne => hall fun j hj hq hl => hne ?_)
      have hlt := (List.getElem?_eq_some_iff.mp hq).1
      have hst := h.next j
      rw [show lbl j = (t, (lbl j).2) by rw [← hl]] at hst
      generalize (lbl j).2 = a at hst
      unfold step at hst
      simp only [hq] at hst
      cases a <;> simp at hst
      · obtain ⟨_, hst, _⟩ := hst
        obtain ⟨j', hj', he⟩ := leave (j + 1) (by rw [← hst]; exact List.getElem?_set_self hlt)
        exact ⟨j', by omega, he⟩
      · exact ⟨j, hj, .inr (by rw [← hst.2]; simp)⟩
  rcases hi with hi | hi | hi
  · obtain ⟨j, hj, hu, hl⟩ := takes h hs hi (fun s hs => ⟨_, by unfold step; simp only [hs]; rfl⟩)
    have hlt := (List.getElem?_eq_some_iff.mp hu).1
    have hst := h.next j
    rw [show lbl j = (t, (lbl j).2) by rw [← hl]] at hst
    generalize (lbl j).2 = a at hst
    unfold step at hst
    simp only [hu] at hst
    cases a <;> simp at hst
    rcases sem (j + 1) (by rw [← hst.1]; exact List.getElem?_set_self hlt) with ⟨j', hj', he⟩ | ⟨m, hm, he⟩
    · exact .inl ⟨j', by omega, he⟩
    · exact .inr ⟨m, by omega, he⟩
  · exact sem i hi
  · exact .inl (leave i hi)

end

theorem ready_wSem {s : St} {t : Nat} (ht : s.ths[t]? = some (.wSem .wait)) (h0 : 0 < s.sem) : Ready step Next s t :=
  ⟨.go, _, rfl, by unfold step; simp only [ht, if_pos h0]; rfl⟩

end Verif.AutoSem
