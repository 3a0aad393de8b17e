import Verif.Proof.CondVarPosix
import Verif.Proof.Endless

/-!
# Notified waits of `condition_variable` for pthreads come back (C115)
-/

namespace Verif.CondVarPosix

open Verif.Spec.Endless

variable {D : Type}

/-- The steps that depend neither on the user nor on the clock nor on a failure of the system. -/
def Next (_ : St D) (a : Act D) : Prop := a = .go

/-- What a thread is doing is changed by others only if it sleeps. -/
theorem step_other {bug : Bool} {s s' : St D} {t u : Nat} {a : Act D} {es : List (Ev D)} {p : PC D} (h : step bug s (t, a) = some (s', es)) (hne : u ≠ t)
    (hu : s.ths[u]? = some p) (hp : p.isAsleep = false) : s'.ths[u]? = some p := by
  have hmap : p.wakeUp = p := by cases p <;> first | rfl | exact Bool.noConfusion hp
  have hset : ∀ q : PC D, (s.ths.set t q)[u]? = some p := fun q => by rw [get_set_ne (Ne.symm hne)]; exact hu
  unfold step at h
  simp only at h
  split at h
  · cases h
  next pc ht =>
  split at h <;> (try split at h) <;> (try split at h) <;> (try cases h) <;> (try exact hset _) <;> (try exact hu)
  · next v _ k q hv =>
    have hvu : v ≠ u := by rintro rfl; rw [hu] at hv; cases hv; exact Bool.noConfusion hp
    show (s.ths.set v _)[u]? = _
    rw [get_set_ne hvu]; exact hu
  · show (s.ths.map PC.wakeUp)[u]? = _
    rw [List.getElem?_map, hu, Option.map_some, hmap]

theorem length_exec {bug : Bool} {n : Nat} {d₀ : D} {tr : List (Ev D)} {s : St D} (h : Exec (step bug) (init n d₀) tr s) : s.ths.length = n := by
  refine h.invariant' (fun s => s.ths.length = n) (by simp [init]) fun s l s' es hi h => ?_
  obtain ⟨t, a⟩ := l
  unfold step at h
  simp only at h
  split at h
  · cases h
  · split at h <;> (try split at h) <;> (try split at h) <;> (try cases h) <;> first | exact hi | (simp only [List.length_set, List.length_map]; exact hi)

/-- What a notification does. -/
theorem step_notified {bug : Bool} {s s' : St D} {l : Nat × Act D} {t : Nat} {all : Bool} {ws : List Nat} {es : List (Ev D)}
    (h : step bug s l = some (s', es)) (he : .notified t all ws ∈ es) :
    (all = true ∧ s' = { s with ths := s.ths.map PC.wakeUp } ∧ ws = sleepers s.ths) ∨ (all = false ∧ ws = []) ∨
      ∃ u k p, all = false ∧ ws = [u] ∧ s.ths[u]? = some (.asleep k p) ∧ s' = { s with ths := s.ths.set u (.wake k p .ok) } := by
  obtain ⟨v, a⟩ := l
  unfold step at h
  simp only at h
  split at h
  · cases h
  next pc ht =>
  split at h <;> (try split at h) <;> (try split at h) <;> (try cases h) <;> (try (simp at he; done))
  · next u _ k p hu => simp at he; exact .inr (.inr ⟨u, k, p, he.2.1, he.2.2, hu, rfl⟩)
  · simp at he; exact .inr (.inl ⟨he.2.1, he.2.2⟩)
  · simp at he; exact .inl ⟨he.2.1, rfl, he.2.2⟩

section
variable {bug : Bool} {n : Nat} {d₀ : D} {st : Nat → St D} {lbl : Nat → Nat × Act D} {ev : Nat → List (Ev D)} (h : Endless (step bug) (init n d₀) st lbl ev)
include h

/-- A thread that does not sleep and again and again can go on takes a step. -/
theorem takes (hs : Served (step bug) Next st lbl) {i t : Nat} {p : PC D} (hi : (st i).ths[t]? = some p) (hb : p.isAsleep = false)
    (hr : Often fun j => (st j).ths[t]? = some p → Ready (step bug) Next (st j) t) : ∃ j, i ≤ j ∧ (st j).ths[t]? = some p ∧ (lbl j).1 = t := by
  refine Classical.byContradiction fun hn => ?_
  have hall : ∀ j, i ≤ j → (st j).ths[t]? = some p := from_on (p := fun j => (st j).ths[t]? = some p) hi fun j hj hq => by
    have hst := h.next j
    rw [show lbl j = ((lbl j).1, (lbl j).2) from rfl] at hst
    exact step_other hst (fun hl => hn ⟨j, hj, hq, hl.symm⟩) hq hb
  obtain ⟨j, hj, hl⟩ := hs t (fun m => by
    obtain ⟨j, hj, hr⟩ := hr (max m i)
    exact ⟨j, by omega, hr (hall j (by omega))⟩) i
  exact hn ⟨j, hj, hall j hj, hl⟩

/-- A wait that tests its predicate, which holds, ends. -/
theorem test_ends (hs : Served (step bug) Next st lbl) {i t : Nat} {k : Kind} {p : D → Bool} (hi : (st i).ths[t]? = some (.test k p))
    (hp : ∀ j, i ≤ j → p (st j).data = true) : ∃ j, i ≤ j ∧ (.ret t true ∈ ev j ∨ .threw t ∈ ev j) := by
  obtain ⟨j, hj, hq, hl⟩ := takes h hs hi rfl fun m => ⟨m, Nat.le_refl _, fun hq => by
    by_cases hd : p (st m).data = true
    · exact ⟨.go, _, rfl, by simp only [step, hq, hd, if_true]; rfl⟩
    · exact ⟨.go, _, rfl, by simp only [step, hq, if_neg hd]; rfl⟩⟩
  have hst := h.next j
  rw [show lbl j = (t, (lbl j).2) by rw [← hl]] at hst
  generalize (lbl j).2 = a at hst
  simp only [step, hq] at hst
  cases a <;> simp [hp j hj] at hst
  · exact ⟨j, hj, .inl (by rw [← hst.2]; simp)⟩
  · exact ⟨j, hj, .inr (by rw [← hst.2]; simp)⟩

/-- A wait that tests its predicate after a time-out ends. -/
theorem last_ends (hs : Served (step bug) Next st lbl) {i t : Nat} {p : D → Bool} (hi : (st i).ths[t]? = some (.last p))
    (hp : ∀ j, i ≤ j → p (st j).data = true) : ∃ j, i ≤ j ∧ (.ret t true ∈ ev j ∨ .threw t ∈ ev j) := by
  obtain ⟨j, hj, hq, hl⟩ := takes h hs hi rfl fun m => ⟨m, Nat.le_refl _, fun hq => ⟨.go, _, rfl, by simp only [step, hq]; rfl⟩⟩
  have hst := h.next j
  rw [show lbl j = (t, (lbl j).2) by rw [← hl]] at hst
  generalize (lbl j).2 = a at hst
  simp only [step, hq] at hst
  cases a <;> simp [hp j hj] at hst
  · exact ⟨j, hj, .inl (by rw [← hst.2]; simp)⟩
  · exact ⟨j, hj, .inr (by rw [← hst.2]; simp)⟩

/-- A wait that is awake locks the mutex again. -/
theorem wake_goes (hs : Served (step bug) Next st lbl) (hf : Often fun j => (st j).owner = none) {i t : Nat} {k : Kind} {pr : Option (D → Bool)} {r : Wake}
    (hi : (st i).ths[t]? = some (.wake k pr r)) :
    ∃ j, i ≤ j ∧ (st j).ths[t]? = some (.wake k pr r) ∧ step bug (st j) (t, .go) = some (st (j + 1), ev j) := by
  obtain ⟨j, hj, hq, hl⟩ := takes h hs hi rfl fun m => by
    obtain ⟨j, hj, ho⟩ := hf m
    refine ⟨j, hj, fun hq => ?_⟩
    cases r <;> cases k <;> cases pr <;> exact ⟨.go, _, rfl, by simp only [step, hq, ho, if_true]; rfl⟩
  have hst := h.next j
  rw [show lbl j = (t, (lbl j).2) by rw [← hl]] at hst
  have hgo : (lbl j).2 = .go := by
    generalize (lbl j).2 = a at hst
    simp only [step, hq] at hst
    cases a <;> first | rfl | (simp at hst; done)
  rw [hgo] at hst
  exact ⟨j, hj, hq, hst⟩

/-- A wait that has been notified ends; one with a predicate if the predicate holds from then on. -/
theorem ok_ends (hs : Served (step bug) Next st lbl) (hf : Often fun j => (st j).owner = none) {i t : Nat} {k : Kind} {pr : Option (D → Bool)}
    (hi : (st i).ths[t]? = some (.wake k pr .ok)) (hp : ∀ p, pr = some p → ∀ j, i ≤ j → p (st j).data = true) :
    ∃ j, i ≤ j ∧ (.ret t true ∈ ev j ∨ (pr ≠ none ∧ .threw t ∈ ev j)) := by
  obtain ⟨j, hj, hq, hst⟩ := wake_goes h hs hf hi
  simp only [step, hq] at hst
  split at hst
  · cases pr with
    | none => simp at hst; exact ⟨j, hj, .inl (by rw [← hst.2]; simp)⟩
    | some p =>
      simp at hst
      obtain ⟨m, hm, he⟩ := test_ends h hs (i := j + 1) (t := t) (k := k) (p := p) (by rw [← hst.1]; exact get_set_self hq) fun m hm => hp p rfl m (by omega)
      exact ⟨m, by omega, he.imp id fun h => ⟨nofun, h⟩⟩
  · cases hst

/-- A wait whose time limit has passed ends; one with a predicate at least if the predicate holds from then on. -/
theorem timeout_ends (hs : Served (step bug) Next st lbl) (hf : Often fun j => (st j).owner = none) {i t : Nat} {k : Kind} {pr : Option (D → Bool)}
    (hk : k ≠ .clocked) (hi : (st i).ths[t]? = some (.wake k pr .timeout)) (hp : ∀ p, pr = some p → ∀ j, i ≤ j → p (st j).data = true) :
    ∃ j, i ≤ j ∧ ((∃ b, .ret t b ∈ ev j ∧ (pr ≠ none → b = true)) ∨ (pr ≠ none ∧ .threw t ∈ ev j)) := by
  obtain ⟨j, hj, hq, hst⟩ := wake_goes h hs hf hi
  simp only [step, hq] at hst
  split at hst
  · cases pr with
    | none =>
      cases k <;> simp at hst hk
      · exact ⟨j, hj, .inl ⟨false, by rw [← hst.2]; simp, fun h => absurd rfl h⟩⟩
      · exact ⟨j, hj, .inl ⟨false, by rw [← hst.2]; simp, fun h => absurd rfl h⟩⟩
    | some p =>
      have hl : (st (j + 1)).ths[t]? = some (.last p) := by
        cases k <;> simp at hst hk <;> (rw [← hst.1]; exact get_set_self hq)
      obtain ⟨m, hm, he⟩ := last_ends h hs hl fun m hm => hp p rfl m (by omega)
      exact ⟨m, by omega, he.imp (fun h => ⟨true, h, fun _ => rfl⟩) fun h => ⟨nofun, h⟩⟩
  · cases hst

end

end Verif.CondVarPosix
