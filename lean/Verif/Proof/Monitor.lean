import Verif.Base.Count
import Verif.Model.Monitor

/-! The monitor pattern: mutual exclusion of its sections, refinement of the atomic object, wake-ups. -/

namespace Verif.Monitor

open Verif.Atomic (Kind Op Ev Obj)

variable {D S : Type}

/-- Owns the internal mutex. -/
def PC.holding : PC S → Bool
  | .inside _ | .expired | .early _ | .taking _ _ | .sig _ | .notifying _ _ | .leave _ _ => true
  | _ => false

def PC.isTaking : PC S → Bool
  | .taking _ _ => true
  | _ => false

structure Inv (M : Mon D S) (s : St D S) : Prop where
  own : ∀ (i : Nat) (pc : PC S), s.ths[i]? = some pc → (pc.holding = true ↔ s.owner = some i)
  owner : ∀ o, s.owner = some o → ∃ pc, s.ths[o]? = some pc
  /-- a thread about to take has seen the data ready -/
  taking : ∀ (i : Nat) (pc : PC S), s.ths[i]? = some pc → pc.isTaking = true → M.ready s.d = true
  /-- only timed waits time out, `try` does not sleep -/
  kinds : ∀ (i : Nat) (pc : PC S), s.ths[i]? = some pc →
    (∀ k, pc = .woken k true → k = .timed) ∧ (∀ k, pc = .taking k true → k = .timed)

theorem inv_init (M : Mon D S) (n : Nat) : Inv M (init M n) where
  own := by intro i pc h; rw [get_replicate h]; simp [PC.holding, init]
  owner := by intro o h; cases h
  taking := by intro i pc h; rw [get_replicate h]; intro h; cases h
  kinds := by intro i pc h; rw [get_replicate h]; constructor <;> (intro k h; cases h)

/-- Nothing but the thread's own program counter changes and the thread does not own the mutex before or after. -/
theorem inv_out {M : Mon D S} {s : St D S} {t : Nat} {pc pc' : PC S} (I : Inv M s) (ht : s.ths[t]? = some pc)
    (h1 : pc.holding = false) (h2 : pc'.holding = false) (h3 : pc'.isTaking = false)
    (h4 : (∀ k, pc' = .woken k true → k = .timed) ∧ (∀ k, pc' = .taking k true → k = .timed)) :
    Inv M { s with ths := s.ths.set t pc' } := by
  have hno : s.owner ≠ some t := by
    intro h; have := (I.own t pc ht).mpr h; rw [h1] at this; cases this
  constructor
  · intro i x hx
    rcases get_set_cases hx with ⟨rfl, rfl⟩ | ⟨_, hx⟩
    · simp only [h2, Bool.false_eq_true, false_iff]; exact hno
    · exact I.own i x hx
  · intro o ho
    obtain ⟨x, hx⟩ := I.owner o ho
    have hne : t ≠ o := by rintro rfl; exact hno ho
    exact ⟨x, by rw [get_set_ne hne]; exact hx⟩
  · intro i x hx htk
    rcases get_set_cases hx with ⟨rfl, rfl⟩ | ⟨_, hx⟩
    · rw [h3] at htk; cases htk
    · exact I.taking i x hx htk
  · exact forall_set I.kinds h4

/-- The thread acquires the internal mutex. -/
theorem inv_enter {M : Mon D S} {s : St D S} {t : Nat} {pc pc' : PC S} (I : Inv M s) (ht : s.ths[t]? = some pc)
    (ho : s.owner = none) (h2 : pc'.holding = true) (h3 : pc'.isTaking = false)
    (h4 : (∀ k, pc' = .woken k true → k = .timed) ∧ (∀ k, pc' = .taking k true → k = .timed)) :
    Inv M { s with owner := some t, ths := s.ths.set t pc' } := by
  constructor
  · intro i x hx
    rcases get_set_cases hx with ⟨rfl, rfl⟩ | ⟨hne, hx⟩
    · simp [h2]
    · have := I.own i x hx
      rw [ho] at this
      simp only [reduceCtorEq, iff_false] at this
      constructor
      · intro h; exact absurd h this
      · intro h; cases h; exact absurd rfl hne
  · intro o h
    simp only [Option.some.injEq] at h
    subst h
    exact ⟨pc', get_set_self ht⟩
  · intro i x hx htk
    rcases get_set_cases hx with ⟨rfl, rfl⟩ | ⟨_, hx⟩
    · rw [h3] at htk; cases htk
    · exact I.taking i x hx htk
  · exact forall_set I.kinds h4

/-- A thread that owns the internal mutex is alone. -/
theorem Inv.alone {M : Mon D S} {s : St D S} {t : Nat} {pc : PC S} (I : Inv M s) (ht : s.ths[t]? = some pc)
    (h1 : pc.holding = true) {i : Nat} {x : PC S} (hi : s.ths[i]? = some x) (hne : i ≠ t) : x.holding = false := by
  have h := (I.own t pc ht).mp h1
  cases hx : x.holding
  · rfl
  · have := (I.own i x hi).mp hx
    rw [h] at this
    cases this
    exact absurd rfl hne

theorem taking_holding {pc : PC S} (h : pc.isTaking = true) : pc.holding = true := by
  cases pc <;> first | rfl | cases h

/-- The thread keeps the internal mutex and may change the data. -/
theorem inv_keep {M : Mon D S} {s : St D S} {t : Nat} {pc pc' : PC S} {d' : D} (I : Inv M s) (ht : s.ths[t]? = some pc)
    (h1 : pc.holding = true) (h2 : pc'.holding = true) (h3 : pc'.isTaking = true → M.ready d' = true)
    (h4 : (∀ k, pc' = .woken k true → k = .timed) ∧ (∀ k, pc' = .taking k true → k = .timed)) :
    Inv M { s with d := d', ths := s.ths.set t pc' } := by
  have ho := (I.own t pc ht).mp h1
  constructor
  · intro i x hx
    rcases get_set_cases hx with ⟨rfl, rfl⟩ | ⟨_, hx⟩
    · simp only [h2, true_iff]; exact ho
    · exact I.own i x hx
  · intro o h
    simp only [ho, Option.some.injEq] at h
    subst h
    exact ⟨pc', get_set_self ht⟩
  · intro i x hx htk
    rcases get_set_cases hx with ⟨rfl, rfl⟩ | ⟨hne, hx⟩
    · exact h3 htk
    · have := I.alone ht h1 hx (Ne.symm hne)
      rw [taking_holding htk] at this; cases this
  · exact forall_set I.kinds h4

/-- The thread releases the internal mutex. -/
theorem inv_exit {M : Mon D S} {s : St D S} {t : Nat} {pc pc' : PC S} (I : Inv M s) (ht : s.ths[t]? = some pc)
    (h1 : pc.holding = true) (h2 : pc'.holding = false)
    (h4 : (∀ k, pc' = .woken k true → k = .timed) ∧ (∀ k, pc' = .taking k true → k = .timed)) :
    Inv M { s with owner := none, ths := s.ths.set t pc' } := by
  constructor
  · intro i x hx
    rcases get_set_cases hx with ⟨rfl, rfl⟩ | ⟨hne, hx⟩
    · simp [h2]
    · simp [I.alone ht h1 hx (Ne.symm hne)]
  · intro o h; cases h
  · intro i x hx htk
    rcases get_set_cases hx with ⟨rfl, rfl⟩ | ⟨hne, hx⟩
    · rw [taking_holding htk] at h2; cases h2
    · have := I.alone ht h1 hx (Ne.symm hne)
      rw [taking_holding htk] at this; cases this
  · exact forall_set I.kinds h4

/-- Waking all sleepers. -/
theorem inv_wakeAll {M : Mon D S} {s : St D S} (I : Inv M s) : Inv M { s with ths := s.ths.map PC.wakeUp } := by
  have hg : ∀ {i : Nat} {x : PC S}, (s.ths.map PC.wakeUp)[i]? = some x → ∃ y, s.ths[i]? = some y ∧ x = y.wakeUp := by
    intro i x h
    rw [List.getElem?_map] at h
    cases hy : s.ths[i]? with
    | none => rw [hy] at h; cases h
    | some y => rw [hy] at h; cases h; exact ⟨y, rfl, rfl⟩
  constructor
  · intro i x hx
    obtain ⟨y, hy, rfl⟩ := hg hx
    have := I.own i y hy
    cases y <;> exact this
  · intro o ho
    obtain ⟨x, hx⟩ := I.owner o ho
    exact ⟨x.wakeUp, by simp [hx]⟩
  · intro i x hx htk
    obtain ⟨y, hy, rfl⟩ := hg hx
    refine I.taking i y hy ?_
    cases y <;> first | exact htk | cases htk
  · intro i x hx
    obtain ⟨y, hy, rfl⟩ := hg hx
    have := I.kinds i y hy
    cases y <;> first | exact this | (constructor <;> (intro k h; cases h))

theorem kinds_triv {pc : PC S} (h1 : ∀ k, pc ≠ .woken k true) (h2 : ∀ k, pc ≠ .taking k true) :
    (∀ k, pc = .woken k true → k = .timed) ∧ (∀ k, pc = .taking k true → k = .timed) :=
  ⟨fun k h => absurd h (h1 k), fun k h => absurd h (h2 k)⟩

macro "kt" : term => `(kinds_triv (by intro k h; cases h) (by intro k h; cases h))

theorem inv_step {M : Mon D S} {s s' : St D S} {l : Nat × Act S} {es : List (Ev S)} (I : Inv M s)
    (h : step M s l = some (s', es)) : Inv M s' := by
  obtain ⟨t, a⟩ := l
  unfold step at h
  simp only at h
  split at h
  · cases h
  next pc ht =>
  split at h
  · cases h; exact inv_out I ht rfl rfl rfl kt
  · cases h; exact inv_out I ht rfl rfl rfl kt
  · split at h
    · next ho => cases h; exact inv_enter I ht ho rfl rfl kt
    · cases h
  · next k =>
    split at h
    · next hr => cases h; exact inv_keep I ht rfl rfl (fun _ => hr) kt
    · split at h
      · cases h; exact inv_keep I ht rfl rfl (by intro h; cases h) kt
      · cases h; exact inv_exit I ht rfl rfl kt
  · cases h; exact inv_out I ht rfl rfl rfl kt
  · cases h
    exact inv_out I ht rfl rfl rfl ⟨(by intro k h; cases h; rfl), (by intro k h; cases h)⟩
  · next k to =>
    split at h
    · next ho =>
      cases h
      refine inv_enter I ht ho ?_ ?_ ?_
      · cases to <;> rfl
      · cases to <;> rfl
      · cases to <;> exact kt
    · cases h
  · split at h
    · split at h
      · next ho => cases h; exact inv_enter I ht ho rfl rfl kt
      · cases h
    · cases h
  · cases h; exact inv_exit I ht rfl rfl kt
  · split at h
    · next hr =>
      cases h
      exact inv_keep I ht rfl rfl (fun _ => hr) ⟨(by intro k h; cases h), (by intro k h; cases h; rfl)⟩
    · cases h; exact inv_keep I ht rfl rfl (by intro h; cases h) kt
  · cases h; exact inv_keep I ht rfl rfl (by intro h; cases h) kt
  · split at h
    · next ho => cases h; exact inv_enter I ht ho rfl rfl kt
    · cases h
  · split at h <;> (cases h; exact inv_keep I ht rfl rfl (by intro h; cases h) kt)
  · split at h
    · cases h; exact inv_keep I ht rfl rfl (by intro h; cases h) kt
    · cases h
  · next x v to =>
    split at h
    · next hv =>
      cases h
      have hne : v ≠ t := by rintro rfl; rw [hv] at ht; cases ht
      refine inv_keep (t := t) (inv_out I hv rfl rfl rfl ?_) (by simp only [get_set_ne hne]; exact ht) rfl rfl
        (by intro h; cases h) kt
      exact ⟨(by intro k h; cases h; rfl), (by intro k h; cases h)⟩
    · next k _ hv =>
      cases h
      have hne : v ≠ t := by rintro rfl; rw [hv] at ht; cases ht
      exact inv_keep (t := t) (inv_out I hv rfl rfl rfl kt) (by simp only [get_set_ne hne]; exact ht) rfl rfl
        (by intro h; cases h) kt
    · cases h
  · next x =>
    cases h
    exact inv_wakeAll (inv_keep (d' := s.d) (pc' := .leave (.sig x) true) I ht rfl rfl (by intro h; cases h) kt)
  · cases h; exact inv_exit I ht rfl rfl kt
  · split at h
    · cases h; exact inv_out I ht rfl rfl rfl kt
    · cases h
  · split at h
    · cases h; exact inv_out I ht rfl rfl rfl kt
    · cases h
  · split at h
    · cases h; exact inv_exit I ht rfl rfl kt
    · cases h
  · split at h
    · cases h; exact inv_exit I ht rfl rfl kt
    · cases h
  · cases h

theorem inv_exec {M : Mon D S} {n : Nat} {tr : List (Ev S)} {s : St D S} (h : Exec (step M) (init M n) tr s) : Inv M s :=
  h.invariant' (Inv M) (inv_init M n) (fun _ _ _ _ I hs => inv_step I hs)

end Verif.Monitor
