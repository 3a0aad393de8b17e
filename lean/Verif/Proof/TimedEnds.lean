import Verif.Proof.NotifiedAny
import Verif.Proof.NotifiedPosix

/-!
# Waits with a time limit come to an end (C117)
-/

open Verif.Spec.Endless

namespace Verif.CondVarPosix

variable {D : Type}

/-- In a wait with a time limit of the system's clock. -/
def PC.limited : PC D → Bool
  | .test k _ | .block k _ | .asleep k _ | .wake k _ _ => k = .system
  | .last _ => true
  | _ => false

/-- A wait with a time limit goes on until it ends. -/
theorem limited_step {bug : Bool} {s s' : St D} {t u : Nat} {a : Act D} {es : List (Ev D)} {p : PC D} (h : step bug s (t, a) = some (s', es))
    (hu : s.ths[u]? = some p) (hp : p.limited = true) :
    ((∃ b, .ret u b ∈ es) ∨ .threw u ∈ es) ∨ ∃ p', s'.ths[u]? = some p' ∧ p'.limited = true := by
  by_cases htu : t = u
  · subst htu
    simp only [step, hu] at h
    have self : ∀ q : PC D, (s.ths.set t q)[t]? = some q := fun q => get_set_self hu
    cases p with
    | idle | clock => cases hp
    | test k p =>
      cases k <;> simp [PC.limited] at hp
      cases a <;> simp at h
      · split at h <;> cases h
        · exact .inl (.inl ⟨_, List.mem_singleton.2 rfl⟩)
        · exact .inr ⟨_, self _, rfl⟩
      · cases h.2; exact .inl (.inr (List.mem_singleton.2 rfl))
    | block k p =>
      cases a <;> simp at h
      · rw [← h.1]; exact .inr ⟨_, self _, hp⟩
      · rw [← h.2]; exact .inl (.inr (List.mem_singleton.2 rfl))
    | asleep k p =>
      cases a <;> simp at h
      · rw [← h.1]; exact .inr ⟨_, self _, hp⟩
      · rw [← h.2.1]; exact .inr ⟨_, self _, hp⟩
      · rw [← h.2.1]; exact .inr ⟨_, self _, hp⟩
    | wake k p r =>
      cases k <;> simp [PC.limited] at hp
      cases a <;> simp at h
      obtain ⟨_, h⟩ := h
      cases r <;> cases p <;> simp at h
      · rw [← h.2]; exact .inl (.inl ⟨true, by simp⟩)
      · rw [← h.1]; exact .inr ⟨_, self _, rfl⟩
      · rw [← h.2]; exact .inl (.inl ⟨false, by simp⟩)
      · rw [← h.1]; exact .inr ⟨_, self _, rfl⟩
      · rw [← h.1]; exact .inr ⟨_, self _, rfl⟩
      · rw [← h.1]; exact .inr ⟨_, self _, rfl⟩
    | last p =>
      cases a <;> simp at h
      · rw [← h.2]; exact .inl (.inl ⟨_, List.mem_singleton.2 rfl⟩)
      · rw [← h.2]; exact .inl (.inr (List.mem_singleton.2 rfl))
  · right
    by_cases hs : p.isAsleep = true
    · cases p <;> first | (exact Bool.noConfusion hs) | skip
      rename_i k q
      cases k <;> simp [PC.limited] at hp
      have hset : ∀ x : PC D, (s.ths.set t x)[u]? = some (.asleep .system q) := fun x => by rw [get_set_ne htu]; exact hu
      unfold step at h
      simp only at h
      split at h
      · cases h
      next pc ht =>
      split at h <;> (try split at h) <;> (try split at h) <;> (try cases h) <;> (try exact ⟨_, hset _, rfl⟩) <;> (try exact ⟨_, hu, rfl⟩)
      · next v _ k q' hv =>
        by_cases hvu : v = u
        · subst hvu
          rw [hu] at hv; cases hv
          exact ⟨_, get_set_self hu, rfl⟩
        · exact ⟨_, by show (s.ths.set v _)[u]? = _; rw [get_set_ne hvu]; exact hu, rfl⟩
      · exact ⟨_, by show (s.ths.map PC.wakeUp)[u]? = _; rw [List.getElem?_map, hu]; rfl, rfl⟩
    · exact ⟨p, step_other h (Ne.symm htu) hu (by simpa using hs), hp⟩

section
variable {bug : Bool} {n : Nat} {d₀ : D} {st : Nat → St D} {lbl : Nat → Nat × Act D} {ev : Nat → List (Ev D)} (h : Endless (step bug) (init n d₀) st lbl ev)
include h

/-- A wait with a time limit that has not ended by then sleeps at some time. -/
theorem limited_sleeps (hs : Served (step bug) Next st lbl) (hf : Often fun j => (st j).owner = none) {i t : Nat} {p : PC D} (hi : (st i).ths[t]? = some p)
    (hp : p.limited = true) :
    ∃ j, i ≤ j ∧ (((∃ b, .ret t b ∈ ev j) ∨ .threw t ∈ ev j) ∨ ∃ q, (st j).ths[t]? = some (.asleep .system q)) := by
  have go : ∀ {i : Nat} {p : PC D}, (st i).ths[t]? = some p → p.isAsleep = false → (∀ m, (st m).ths[t]? = some p → Ready (step bug) Next (st m) t) →
      ∃ j a, i ≤ j ∧ (st j).ths[t]? = some p ∧ step bug (st j) (t, a) = some (st (j + 1), ev j) := fun hi hb hr => by
    obtain ⟨j, hj, hq, hl⟩ := takes h hs hi hb fun m => ⟨m, Nat.le_refl _, hr m⟩
    have hst := h.next j
    rw [show lbl j = (t, (lbl j).2) by rw [← hl]] at hst
    exact ⟨j, _, hj, hq, hst⟩
  have last : ∀ i p, (st i).ths[t]? = some (.last p) → ∃ j, i ≤ j ∧ (((∃ b, .ret t b ∈ ev j) ∨ .threw t ∈ ev j) ∨ ∃ q, (st j).ths[t]? = some (.asleep .system q)) := by
    intro i p hi
    obtain ⟨j, a, hj, hq, hst⟩ := go hi rfl fun m hq => ⟨.go, _, rfl, by simp only [step, hq]; rfl⟩
    refine ⟨j, hj, .inl ?_⟩
    simp only [step, hq] at hst
    cases a <;> simp at hst
    · rw [← hst.2]; exact .inl ⟨_, List.mem_singleton.2 rfl⟩
    · rw [← hst.2]; exact .inr (List.mem_singleton.2 rfl)
  have block : ∀ i p, (st i).ths[t]? = some (.block .system p) → ∃ j, i ≤ j ∧ (((∃ b, .ret t b ∈ ev j) ∨ .threw t ∈ ev j) ∨ ∃ q, (st j).ths[t]? = some (.asleep .system q)) := by
    intro i p hi
    obtain ⟨j, a, hj, hq, hst⟩ := go hi rfl fun m hq => ⟨.go, _, rfl, by simp only [step, hq]; rfl⟩
    simp only [step, hq] at hst
    cases a <;> simp at hst
    · exact ⟨j + 1, by omega, .inr ⟨p, by rw [← hst.1]; exact get_set_self hq⟩⟩
    · exact ⟨j, hj, .inl (.inr (by rw [← hst.2]; simp))⟩
  have test : ∀ i p, (st i).ths[t]? = some (.test .system p) → ∃ j, i ≤ j ∧ (((∃ b, .ret t b ∈ ev j) ∨ .threw t ∈ ev j) ∨ ∃ q, (st j).ths[t]? = some (.asleep .system q)) := by
    intro i p hi
    obtain ⟨j, a, hj, hq, hst⟩ := go hi rfl fun m hq => by
      by_cases hd : p (st m).data = true
      · exact ⟨.go, _, rfl, by simp only [step, hq, hd, if_true]; rfl⟩
      · exact ⟨.go, _, rfl, by simp only [step, hq, if_neg hd]; rfl⟩
    simp only [step, hq] at hst
    cases a <;> simp at hst
    · split at hst <;> simp at hst
      · exact ⟨j, hj, .inl (.inl ⟨true, by rw [← hst.2]; simp⟩)⟩
      · obtain ⟨k, hk, r⟩ := block (j + 1) (some p) (by rw [← hst.1]; exact get_set_self hq)
        exact ⟨k, by omega, r⟩
    · exact ⟨j, hj, .inl (.inr (by rw [← hst.2]; simp))⟩
  cases p with
  | idle | clock => cases hp
  | last p => exact last i p hi
  | block k p => cases k <;> simp [PC.limited] at hp; exact block i p hi
  | test k p => cases k <;> simp [PC.limited] at hp; exact test i p hi
  | asleep k p => cases k <;> simp [PC.limited] at hp; exact ⟨i, Nat.le_refl _, .inr ⟨p, hi⟩⟩
  | wake k p r =>
    cases k <;> simp [PC.limited] at hp
    obtain ⟨j, hj, hq, hst⟩ := wake_goes h hs hf hi
    simp only [step, hq] at hst
    split at hst
    · cases r <;> cases p <;> simp at hst
      · exact ⟨j, hj, .inl (.inl ⟨true, by rw [← hst.2]; simp⟩)⟩
      · obtain ⟨k, hk, r⟩ := test (j + 1) _ (by rw [← hst.1]; exact get_set_self hq)
        exact ⟨k, by omega, r⟩
      · exact ⟨j, hj, .inl (.inl ⟨false, by rw [← hst.2]; simp⟩)⟩
      · obtain ⟨k, hk, r⟩ := last (j + 1) _ (by rw [← hst.1]; exact get_set_self hq)
        exact ⟨k, by omega, r⟩
      · obtain ⟨k, hk, r⟩ := block (j + 1) _ (by rw [← hst.1]; exact get_set_self hq)
        exact ⟨k, by omega, r⟩
      · obtain ⟨k, hk, r⟩ := block (j + 1) _ (by rw [← hst.1]; exact get_set_self hq)
        exact ⟨k, by omega, r⟩
    · cases hst

/-- After a time-out the wait ends. -/
theorem timed_out_ends (hs : Served (step bug) Next st lbl) (hf : Often fun j => (st j).owner = none) {i t : Nat} {pr : Option (D → Bool)}
    (hi : (st i).ths[t]? = some (.wake .system pr .timeout)) : ∃ j, i ≤ j ∧ ((∃ b, .ret t b ∈ ev j) ∨ .threw t ∈ ev j) := by
  obtain ⟨j, hj, hq, hst⟩ := wake_goes h hs hf hi
  simp only [step, hq] at hst
  split at hst
  · cases pr <;> simp at hst
    · exact ⟨j, hj, .inl ⟨false, by rw [← hst.2]; simp⟩⟩
    · rename_i p
      have hl : (st (j + 1)).ths[t]? = some (.last p) := by rw [← hst.1]; exact get_set_self hq
      obtain ⟨k, hk, hq, hl⟩ := takes h hs hl rfl fun m => ⟨m, Nat.le_refl _, fun hq => ⟨.go, _, rfl, by simp only [step, hq]; rfl⟩⟩
      have hst := h.next k
      rw [show lbl k = (t, (lbl k).2) by rw [← hl]] at hst
      generalize (lbl k).2 = a at hst
      refine ⟨k, by omega, ?_⟩
      simp only [step, hq] at hst
      cases a <;> simp at hst
      · rw [← hst.2]; exact .inl ⟨_, List.mem_singleton.2 rfl⟩
      · rw [← hst.2]; exact .inr (List.mem_singleton.2 rfl)
  · cases hst

end

end Verif.CondVarPosix

namespace Verif.CvAny

/-- A sleep ends with the time-out at the latest. -/
theorem blocked_step {s s' : St} {t u : Nat} {a : Act} {es : List Ev} {k : Kind} (h : step s (t, a) = some (s', es)) (hu : s.ths[u]? = some (.blocked k)) :
    (s'.ths[u]? = some (.blocked k) ∧ (t, a) ≠ (u, .timeout)) ∨ ∃ r, s'.ths[u]? = some (.wake k r) := by
  have hset : ∀ x : PC, t ≠ u → (s.ths.set t x)[u]? = some (.blocked k) := fun x htu => by rw [get_set_ne htu]; exact hu
  by_cases htu : t = u
  · subst htu
    simp only [step, hu] at h
    cases k <;> cases a <;> simp at h <;> (rw [← h.1]; exact .inr ⟨_, get_set_self hu⟩)
  · have hne : (t, a) ≠ (u, .timeout) := fun e => htu (Prod.mk.inj e).1
    unfold step at h
    simp only at h
    split at h
    · cases h
    next pc ht =>
    split at h <;> (try split at h) <;> (try cases h) <;> (try exact .inl ⟨hset _ htu, hne⟩) <;> (try exact .inl ⟨hu, hne⟩)
    · next v _ k hv =>
      by_cases hvu : v = u
      · subst hvu
        rw [hu] at hv; cases hv
        exact .inr ⟨.ok, by show ((s.ths.set v _).set t _)[v]? = _; rw [get_set_ne htu]; exact get_set_self hu⟩
      · exact .inl ⟨by show ((s.ths.set v _).set t _)[u]? = _; rw [get_set_ne htu, get_set_ne hvu]; exact hu, hne⟩
    · exact .inr ⟨.ok, by show ((s.ths.map PC.wakeUp).set t _)[u]? = _; rw [get_set_ne htu, List.getElem?_map, hu]; rfl⟩

section
variable {n : Nat} {st : Nat → St} {lbl : Nat → Nat × Act} {ev : Nat → List Ev} (h : Endless step (init n) st lbl ev)
include h

theorem own_step (hs : Served step Next st lbl) {t i : Nat} {p : PC} (hi : (st i).ths[t]? = some p) (hb : p.isBlocked = false)
    (hr : Often fun j => (st j).ths[t]? = some p → Ready step Next (st j) t) :
    ∃ j a, i ≤ j ∧ (st j).ths[t]? = some p ∧ step (st j) (t, a) = some (st (j + 1), ev j) := by
  obtain ⟨j, hj, hq, hl⟩ := takes h hs hi hb hr
  have hst := h.next j
  rw [show lbl j = (t, (lbl j).2) by rw [← hl]] at hst
  exact ⟨j, _, hj, hq, hst⟩

/-- A wait with a time limit that has been called ends. -/
theorem timed_ends (hs : Served step Next st lbl) (hf : Often fun j => (st j).user = none) {t i : Nat}
    (ht : (Often fun j => (st j).ths[t]? = some (.blocked .timed)) → Often fun j => lbl j = (t, .timeout)) (hi : (st i).ths[t]? = some (.wLock .timed)) :
    ∃ j, i ≤ j ∧ ((∃ r, .ret t r ∈ ev j) ∨ .terminated t ∈ ev j) := by
  have relock : ∀ i r, (st i).ths[t]? = some (.wRelock r) → ∃ j, i ≤ j ∧ ((∃ r, .ret t r ∈ ev j) ∨ .terminated t ∈ ev j) := fun i r hi => by
    obtain ⟨j, hj, he | ⟨_, he⟩ | ⟨_, he⟩⟩ := exit_ends h hs hf hi
    · exact ⟨j, hj, .inl ⟨_, he⟩⟩
    · exact ⟨j, hj, .inl ⟨_, he⟩⟩
    · exact ⟨j, hj, .inr he⟩
  have exit : ∀ i r, (st i).ths[t]? = some (.wExit r) → ∃ j, i ≤ j ∧ ((∃ r, .ret t r ∈ ev j) ∨ .terminated t ∈ ev j) := fun i r hi => by
    obtain ⟨j, a, hj, hq, hst⟩ := own_step h hs hi rfl fun m => ⟨m, Nat.le_refl _, fun hq => ⟨.go, _, .inl rfl, by simp only [step, hq]; rfl⟩⟩
    simp only [step, hq] at hst
    cases a <;> simp at hst
    obtain ⟨k, hk, r⟩ := relock (j + 1) r (by rw [← hst.1]; exact get_set_self hq)
    exact ⟨k, by omega, r⟩
  have sleep : ∀ i, (st i).ths[t]? = some (.blocked .timed) → ∃ j, i ≤ j ∧ ((∃ r, .ret t r ∈ ev j) ∨ .terminated t ∈ ev j) := fun i hi => by
    have hw : ∃ j r, i ≤ j ∧ (st j).ths[t]? = some (.wake .timed r) := by
      refine Classical.byContradiction fun hn => ?_
      have hall : ∀ j, i ≤ j → (st j).ths[t]? = some (.blocked .timed) := from_on (p := fun j => (st j).ths[t]? = some (.blocked .timed)) hi fun j hj hq => by
        rcases blocked_step (t := (lbl j).1) (a := (lbl j).2) (h.next j) hq with ⟨h1, _⟩ | ⟨r, h1⟩
        · exact h1
        · exact absurd ⟨j + 1, r, by omega, h1⟩ hn
      obtain ⟨j, hj, hl⟩ := ht (fun m => ⟨max m i, by omega, hall _ (by omega)⟩) i
      rcases blocked_step (t := (lbl j).1) (a := (lbl j).2) (h.next j) (hall j hj) with ⟨_, h1⟩ | ⟨r, h1⟩
      · exact h1 hl
      · exact hn ⟨j + 1, r, by omega, h1⟩
    obtain ⟨j, r, hj, hq⟩ := hw
    obtain ⟨k, hk, he | ⟨_, he⟩ | ⟨_, he⟩⟩ := woken_ends h hs hf hq (by rintro ⟨e, _⟩; cases e)
    · exact ⟨k, by omega, .inl ⟨_, he⟩⟩
    · exact ⟨k, by omega, .inl ⟨_, he⟩⟩
    · exact ⟨k, by omega, .inr he⟩
  obtain ⟨j, a, hj, hq, hst⟩ := own_step h hs hi rfl fun m => by
    obtain ⟨j, hj, hn⟩ := int_free h hs.scheduled m
    exact ⟨j, hj, fun hq => ⟨.go, _, .inl rfl, by simp only [step, hq, hn]; rfl⟩⟩
  simp only [step, hq] at hst
  cases a <;> simp at hst
  rotate_left
  · exact ⟨j, hj, .inl ⟨.threw, by rw [← hst.2]; simp⟩⟩
  have h1 : (st (j + 1)).ths[t]? = some (.wRelease .timed) := by rw [← hst.2.1]; exact get_set_self hq
  obtain ⟨j2, a, hj2, hq, hst⟩ := own_step h hs h1 rfl fun m => ⟨m, Nat.le_refl _, fun hq => ⟨.go, _, .inl rfl, by simp only [step, hq]; rfl⟩⟩
  simp only [step, hq] at hst
  cases a <;> simp at hst
  rotate_left
  · have h2 : (st (j2 + 1)).ths[t]? = some .wUnwind := by rw [← hst.1]; exact get_set_self hq
    obtain ⟨j3, a, hj3, hq, hst⟩ := own_step h hs h2 rfl fun m => ⟨m, Nat.le_refl _, fun hq => ⟨.go, _, .inl rfl, by simp only [step, hq]; rfl⟩⟩
    simp only [step, hq] at hst
    cases a <;> simp at hst
    exact ⟨j3, by omega, .inl ⟨.threw, by rw [← hst.2]; simp⟩⟩
  have h2 : (st (j2 + 1)).ths[t]? = some (.wBlock .timed) := by rw [← hst.1]; exact get_set_self hq
  obtain ⟨j3, a, hj3, hq, hst⟩ := own_step h hs h2 rfl fun m => ⟨m, Nat.le_refl _, fun hq => ⟨.go, _, .inl rfl, by simp only [step, hq]; rfl⟩⟩
  simp only [step, hq] at hst
  cases a <;> simp at hst
  · obtain ⟨k, hk, r⟩ := sleep (j3 + 1) (by rw [← hst.1]; exact get_set_self hq)
    exact ⟨k, by omega, r⟩
  · obtain ⟨k, hk, r⟩ := exit (j3 + 1) .threw (by rw [← hst.1]; exact get_set_self hq)
    exact ⟨k, by omega, r⟩

end

end Verif.CvAny
