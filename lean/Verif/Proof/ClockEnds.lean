import Verif.Proof.TimedEnds

/-!
# Waits with a time limit of a clock of the user come to an end (C120)
-/

open Verif.Spec.Endless

namespace Verif.CondVarPosix

variable {D : Type}

/-- In a wait with a time limit of a clock of the user. -/
def PC.clocked : PC D → Bool
  | .test k _ | .block k _ | .asleep k _ | .wake k _ _ => k = .clocked
  | .last _ | .clock _ => true
  | _ => false

/-- A wait with a time limit of a clock of the user goes on until it ends. -/
theorem clocked_step {bug : Bool} {s s' : St D} {t u : Nat} {a : Act D} {es : List (Ev D)} {p : PC D} (h : step bug s (t, a) = some (s', es))
    (hu : s.ths[u]? = some p) (hp : p.clocked = true) :
    ((∃ b, .ret u b ∈ es) ∨ .threw u ∈ es) ∨ ∃ p', s'.ths[u]? = some p' ∧ p'.clocked = true := by
  by_cases htu : t = u
  · subst htu
    simp only [step, hu] at h
    have self : ∀ q : PC D, (s.ths.set t q)[t]? = some q := fun q => get_set_self hu
    cases p with
    | idle => cases hp
    | clock p =>
      cases a <;> cases p <;> simp at h
      · rw [← h.2]; exact .inl (.inl ⟨false, by simp⟩)
      · rw [← h.1]; exact .inr ⟨_, self _, rfl⟩
      · rw [← h.1]; exact .inr ⟨_, self _, rfl⟩
      · rw [← h.1]; exact .inr ⟨_, self _, rfl⟩
    | test k p =>
      cases k <;> simp [PC.clocked] at hp
      cases a <;> simp at h
      · split at h <;> cases h
        · exact .inl (.inl ⟨_, List.mem_singleton.2 rfl⟩)
        · exact .inr ⟨_, self _, rfl⟩
      · cases h.2; exact .inl (.inr (List.mem_singleton.2 rfl))
    | block k p =>
      cases a <;> simp at h
      · rw [← h.1]; exact .inr ⟨_, self _, hp⟩
      · rw [← h.2]; exact .inl (.inr (List.mem_singleton.2 rfl))
    | asleep k p =>
      cases a <;> simp at h
      · rw [← h.1]; exact .inr ⟨_, self _, hp⟩
      · rw [← h.2.1]; exact .inr ⟨_, self _, hp⟩
      · rw [← h.2.1]; exact .inr ⟨_, self _, hp⟩
    | wake k p r =>
      cases k <;> simp [PC.clocked] at hp
      cases a <;> simp at h
      obtain ⟨_, h⟩ := h
      cases r <;> cases p <;> simp at h
      · rw [← h.2]; exact .inl (.inl ⟨true, by simp⟩)
      · rw [← h.1]; exact .inr ⟨_, self _, rfl⟩
      · rw [← h.1]; exact .inr ⟨_, self _, rfl⟩
      · rw [← h.1]; exact .inr ⟨_, self _, rfl⟩
      · rw [← h.1]; exact .inr ⟨_, self _, rfl⟩
      · rw [← h.1]; exact .inr ⟨_, self _, rfl⟩
    | last p =>
      cases a <;> simp at h
      · rw [← h.2]; exact .inl (.inl ⟨_, List.mem_singleton.2 rfl⟩)
      · rw [← h.2]; exact .inl (.inr (List.mem_singleton.2 rfl))
  · right
    by_cases hs : p.isAsleep = true
    · cases p <;> first | (exact Bool.noConfusion hs) | skip
      rename_i k q
      cases k <;> simp [PC.clocked] at hp
      have hset : ∀ x : PC D, (s.ths.set t x)[u]? = some (.asleep .clocked q) := fun x => by rw [get_set_ne htu]; exact hu
      unfold step at h
      simp only at h
      split at h
      · cases h
      next pc ht =>
      split at h <;> (try split at h) <;> (try split at h) <;> (try cases h) <;> (try exact ⟨_, hset _, rfl⟩) <;> (try exact ⟨_, hu, rfl⟩)
      · next v _ k q' hv =>
        by_cases hvu : v = u
        · subst hvu
          rw [hu] at hv; cases hv
          exact ⟨_, get_set_self hu, rfl⟩
        · exact ⟨_, by show (s.ths.set v _)[u]? = _; rw [get_set_ne hvu]; exact hu, rfl⟩
      · exact ⟨_, by show (s.ths.map PC.wakeUp)[u]? = _; rw [List.getElem?_map, hu]; rfl, rfl⟩
    · exact ⟨p, step_other h (Ne.symm htu) hu (by simpa using hs), hp⟩

section
variable {bug : Bool} {n : Nat} {d₀ : D} {st : Nat → St D} {lbl : Nat → Nat × Act D} {ev : Nat → List (Ev D)} (h : Endless (step bug) (init n d₀) st lbl ev)
include h

theorem own_step (hs : Served (step bug) Next st lbl) {t i : Nat} {p : PC D} (hi : (st i).ths[t]? = some p) (hb : p.isAsleep = false)
    (hr : ∀ m, (st m).ths[t]? = some p → Ready (step bug) Next (st m) t) :
    ∃ j a, i ≤ j ∧ (st j).ths[t]? = some p ∧ step bug (st j) (t, a) = some (st (j + 1), ev j) := by
  obtain ⟨j, hj, hq, hl⟩ := takes h hs hi hb fun m => ⟨m, Nat.le_refl _, hr m⟩
  have hst := h.next j
  rw [show lbl j = (t, (lbl j).2) by rw [← hl]] at hst
  exact ⟨j, _, hj, hq, hst⟩

/-- The last test of the predicate ends the wait. -/
theorem last_over (hs : Served (step bug) Next st lbl) {i t : Nat} {p : D → Bool} (hi : (st i).ths[t]? = some (.last p)) :
    ∃ j, i ≤ j ∧ ((∃ b, .ret t b ∈ ev j) ∨ .threw t ∈ ev j) := by
  obtain ⟨j, a, hj, hq, hst⟩ := own_step h hs hi rfl fun m hq => ⟨.go, _, rfl, by simp only [step, hq]; rfl⟩
  refine ⟨j, hj, ?_⟩
  simp only [step, hq] at hst
  cases a <;> simp at hst
  · rw [← hst.2]; exact .inl ⟨_, List.mem_singleton.2 rfl⟩
  · rw [← hst.2]; exact .inr (List.mem_singleton.2 rfl)

/-- A wait for a clock of the user that has not ended by then sleeps or reads the clock at some time. -/
theorem clocked_goes (hs : Served (step bug) Next st lbl) (hf : Often fun j => (st j).owner = none) {i t : Nat} {p : PC D} (hi : (st i).ths[t]? = some p)
    (hp : p.clocked = true) :
    ∃ j, i ≤ j ∧ (((∃ b, .ret t b ∈ ev j) ∨ .threw t ∈ ev j) ∨ (∃ q, (st j).ths[t]? = some (.asleep .clocked q)) ∨ ∃ q, (st j).ths[t]? = some (.clock q)) := by
  have block : ∀ i p, (st i).ths[t]? = some (.block .clocked p) → ∃ j, i ≤ j ∧ (((∃ b, .ret t b ∈ ev j) ∨ .threw t ∈ ev j) ∨
      (∃ q, (st j).ths[t]? = some (.asleep .clocked q)) ∨ ∃ q, (st j).ths[t]? = some (.clock q)) := by
    intro i p hi
    obtain ⟨j, a, hj, hq, hst⟩ := own_step h hs hi rfl fun m hq => ⟨.go, _, rfl, by simp only [step, hq]; rfl⟩
    simp only [step, hq] at hst
    cases a <;> simp at hst
    · exact ⟨j + 1, by omega, .inr (.inl ⟨p, by rw [← hst.1]; exact get_set_self hq⟩)⟩
    · exact ⟨j, hj, .inl (.inr (by rw [← hst.2]; simp))⟩
  have test : ∀ i p, (st i).ths[t]? = some (.test .clocked p) → ∃ j, i ≤ j ∧ (((∃ b, .ret t b ∈ ev j) ∨ .threw t ∈ ev j) ∨
      (∃ q, (st j).ths[t]? = some (.asleep .clocked q)) ∨ ∃ q, (st j).ths[t]? = some (.clock q)) := by
    intro i p hi
    obtain ⟨j, a, hj, hq, hst⟩ := own_step h hs hi rfl fun m hq => by
      by_cases hd : p (st m).data = true
      · exact ⟨.go, _, rfl, by simp only [step, hq, hd, if_true]; rfl⟩
      · exact ⟨.go, _, rfl, by simp only [step, hq, if_neg hd]; rfl⟩
    simp only [step, hq] at hst
    cases a <;> simp at hst
    · split at hst <;> simp at hst
      · exact ⟨j, hj, .inl (.inl ⟨true, by rw [← hst.2]; simp⟩)⟩
      · exact ⟨j + 1, by omega, .inr (.inr ⟨some p, by rw [← hst.1]; exact get_set_self hq⟩)⟩
    · exact ⟨j, hj, .inl (.inr (by rw [← hst.2]; simp))⟩
  cases p with
  | idle => cases hp
  | clock p => exact ⟨i, Nat.le_refl _, .inr (.inr ⟨p, hi⟩)⟩
  | last p =>
    obtain ⟨j, hj, r⟩ := last_over h hs hi
    exact ⟨j, hj, .inl r⟩
  | block k p => cases k <;> simp [PC.clocked] at hp; exact block i p hi
  | test k p => cases k <;> simp [PC.clocked] at hp; exact test i p hi
  | asleep k p => cases k <;> simp [PC.clocked] at hp; exact ⟨i, Nat.le_refl _, .inr (.inl ⟨p, hi⟩)⟩
  | wake k p r =>
    cases k <;> simp [PC.clocked] at hp
    obtain ⟨j, hj, hq, hst⟩ := wake_goes h hs hf hi
    simp only [step, hq] at hst
    split at hst
    · cases r <;> cases p <;> simp at hst
      · exact ⟨j, hj, .inl (.inl ⟨true, by rw [← hst.2]; simp⟩)⟩
      · obtain ⟨k, hk, r⟩ := test (j + 1) _ (by rw [← hst.1]; exact get_set_self hq)
        exact ⟨k, by omega, r⟩
      · exact ⟨j + 1, by omega, .inr (.inr ⟨none, by rw [← hst.1]; exact get_set_self hq⟩)⟩
      · exact ⟨j + 1, by omega, .inr (.inr ⟨_, by rw [← hst.1]; exact get_set_self hq⟩)⟩
      · obtain ⟨k, hk, r⟩ := block (j + 1) _ (by rw [← hst.1]; exact get_set_self hq)
        exact ⟨k, by omega, r⟩
      · obtain ⟨k, hk, r⟩ := block (j + 1) _ (by rw [← hst.1]; exact get_set_self hq)
        exact ⟨k, by omega, r⟩
    · cases hst

/-- After a time-out the clock of the user is read. -/
theorem timed_out_reads (hs : Served (step bug) Next st lbl) (hf : Often fun j => (st j).owner = none) {i t : Nat} {pr : Option (D → Bool)}
    (hi : (st i).ths[t]? = some (.wake .clocked pr .timeout)) : ∃ j, i ≤ j ∧ (st j).ths[t]? = some (.clock pr) := by
  obtain ⟨j, hj, hq, hst⟩ := wake_goes h hs hf hi
  simp only [step, hq] at hst
  split at hst
  · simp at hst
    exact ⟨j + 1, by omega, by rw [← hst.1]; exact get_set_self hq⟩
  · cases hst

end

end Verif.CondVarPosix

namespace Verif.CvAny

section
variable {n : Nat} {st : Nat → St} {lbl : Nat → Nat × Act} {ev : Nat → List Ev} (h : Endless step (init n) st lbl ev)
include h

/-- A wait that is about to lock the lock of the user again ends. -/
theorem wExit_ends (hs : Served step Next st lbl) (hf : Often fun j => (st j).user = none) {t i : Nat} {r : Res} (hi : (st i).ths[t]? = some (.wExit r)) :
    ∃ j, i ≤ j ∧ ((∃ r, .ret t r ∈ ev j) ∨ .terminated t ∈ ev j) := by
  obtain ⟨j, a, hj, hq, hst⟩ := own_step h hs hi rfl fun m => ⟨m, Nat.le_refl _, fun hq => ⟨.go, _, .inl rfl, by simp only [step, hq]; rfl⟩⟩
  simp only [step, hq] at hst
  cases a <;> simp at hst
  obtain ⟨k, hk, he | ⟨_, he⟩ | ⟨_, he⟩⟩ := exit_ends h hs hf (i := j + 1) (t := t) (r := r) (by rw [← hst.1]; exact get_set_self hq)
  · exact ⟨k, by omega, .inl ⟨_, he⟩⟩
  · exact ⟨k, by omega, .inl ⟨_, he⟩⟩
  · exact ⟨k, by omega, .inr he⟩

/-- A wait for a clock of the user reads the clock, or it ends before. -/
theorem clocked_reads (hs : Served step Next st lbl) {t i : Nat} (hi : (st i).ths[t]? = some (.wLock .clocked)) :
    ∃ j, i ≤ j ∧ ((∃ r, .ret t r ∈ ev j) ∨ (st j).ths[t]? = some .wClock) := by
  obtain ⟨j, a, hj, hq, hst⟩ := own_step h hs hi rfl fun m => by
    obtain ⟨j, hj, hn⟩ := int_free h hs.scheduled m
    exact ⟨j, hj, fun hq => ⟨.go, _, .inl rfl, by simp only [step, hq, hn]; rfl⟩⟩
  simp only [step, hq] at hst
  cases a <;> simp at hst
  rotate_left
  · exact ⟨j, hj, .inl ⟨.threw, by rw [← hst.2]; simp⟩⟩
  have h1 : (st (j + 1)).ths[t]? = some (.wRelease .clocked) := by rw [← hst.2.1]; exact get_set_self hq
  obtain ⟨j2, a, hj2, hq, hst⟩ := own_step h hs h1 rfl fun m => ⟨m, Nat.le_refl _, fun hq => ⟨.go, _, .inl rfl, by simp only [step, hq]; rfl⟩⟩
  simp only [step, hq] at hst
  cases a <;> simp at hst
  · exact ⟨j2 + 1, by omega, .inr (by rw [← hst.1]; exact get_set_self hq)⟩
  · have h2 : (st (j2 + 1)).ths[t]? = some .wUnwind := by rw [← hst.1]; exact get_set_self hq
    obtain ⟨j3, a, hj3, hq, hst⟩ := own_step h hs h2 rfl fun m => ⟨m, Nat.le_refl _, fun hq => ⟨.go, _, .inl rfl, by simp only [step, hq]; rfl⟩⟩
    simp only [step, hq] at hst
    cases a <;> simp at hst
    exact ⟨j3, by omega, .inl ⟨.threw, by rw [← hst.2]; simp⟩⟩

/-- A wait for a clock of the user reads the clock once more, or it ends. -/
theorem clocked_again (hs : Served step Next st lbl) (hf : Often fun j => (st j).user = none) {t i : Nat}
    (ht : (Often fun j => (st j).ths[t]? = some (.blocked .clocked)) → Often fun j => lbl j = (t, .timeout)) (hi : (st i).ths[t]? = some .wClock) :
    ∃ j, i ≤ j ∧ (((∃ r, .ret t r ∈ ev j) ∨ .terminated t ∈ ev j) ∨ (i < j ∧ (st j).ths[t]? = some .wClock)) := by
  obtain ⟨j, a, hj, hq, hst⟩ := own_step h hs hi rfl fun m => ⟨m, Nat.le_refl _, fun hq => ⟨.go, _, .inl rfl, by simp only [step, hq]; rfl⟩⟩
  simp only [step, hq] at hst
  cases a <;> simp at hst
  · obtain ⟨k, hk, r⟩ := wExit_ends h hs hf (i := j + 1) (t := t) (by rw [← hst.1]; exact get_set_self hq)
    exact ⟨k, by omega, .inl r⟩
  have h1 : (st (j + 1)).ths[t]? = some (.wBlock .clocked) := by rw [← hst.1]; exact get_set_self hq
  obtain ⟨j2, a, hj2, hq, hst⟩ := own_step h hs h1 rfl fun m => ⟨m, Nat.le_refl _, fun hq => ⟨.go, _, .inl rfl, by simp only [step, hq]; rfl⟩⟩
  simp only [step, hq] at hst
  cases a <;> simp at hst
  rotate_left
  · obtain ⟨k, hk, r⟩ := wExit_ends h hs hf (i := j2 + 1) (t := t) (by rw [← hst.1]; exact get_set_self hq)
    exact ⟨k, by omega, .inl r⟩
  have h2 : (st (j2 + 1)).ths[t]? = some (.blocked .clocked) := by rw [← hst.1]; exact get_set_self hq
  have hw : ∃ j r, j2 + 1 ≤ j ∧ (st j).ths[t]? = some (.wake .clocked r) := by
    refine Classical.byContradiction fun hn => ?_
    have hall : ∀ j, j2 + 1 ≤ j → (st j).ths[t]? = some (.blocked .clocked) :=
      from_on (p := fun j => (st j).ths[t]? = some (.blocked .clocked)) h2 fun j hj hq => by
        rcases blocked_step (t := (lbl j).1) (a := (lbl j).2) (h.next j) hq with ⟨h1, _⟩ | ⟨r, h1⟩
        · exact h1
        · exact absurd ⟨j + 1, r, by omega, h1⟩ hn
    obtain ⟨j, hj, hl⟩ := ht (fun m => ⟨max m (j2 + 1), by omega, hall _ (by omega)⟩) (j2 + 1)
    rcases blocked_step (t := (lbl j).1) (a := (lbl j).2) (h.next j) (hall j hj) with ⟨_, h1⟩ | ⟨r, h1⟩
    · exact h1 hl
    · exact hn ⟨j + 1, r, by omega, h1⟩
  obtain ⟨j3, r, hj3, hq⟩ := hw
  by_cases hr : r = .timeout
  · subst hr
    obtain ⟨j4, a, hj4, hq, hst⟩ := own_step h hs hq rfl fun m => by
      obtain ⟨j, hj, hn⟩ := int_free h hs.scheduled m
      exact ⟨j, hj, fun hq => ⟨.go, _, .inl rfl, by simp only [step, hq, hn]; rfl⟩⟩
    simp only [step, hq] at hst
    cases a <;> simp at hst
    exact ⟨j4 + 1, by omega, .inr ⟨by omega, by rw [← hst.2.1]; exact get_set_self hq⟩⟩
  · obtain ⟨k, hk, he | ⟨_, he⟩ | ⟨_, he⟩⟩ := woken_ends h hs hf hq (fun e => hr e.2)
    · exact ⟨k, by omega, .inl (.inl ⟨_, he⟩)⟩
    · exact ⟨k, by omega, .inl (.inl ⟨_, he⟩)⟩
    · exact ⟨k, by omega, .inl (.inr he)⟩

end

end Verif.CvAny
