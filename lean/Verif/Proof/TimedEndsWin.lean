import Verif.Proof.NotifiedWin

/-!
# Waits of the condition variable of Windows with a time limit come to an end (C117)
-/

open Verif.Spec.Endless

namespace Verif.WinCv

/-- In a wait with a time limit. -/
def PC.limited : PC → Bool
  | .wTimer | .wAbort | .expired _ | .inExpired _ | .failed _ | .inFailed _ | .relock _ => true
  | .wEnter k | .wInit k | .wLoop k _ | .wNew k _ | .wExit k _ | .wUnlock k _ | .blocked k _ | .gotTok k _ | .inTok k _ => k.timed
  | _ => false

/-- How far the next sleep, or the end, is. -/
def PC.dist : PC → Nat
  | .wTimer => 12
  | .wEnter _ => 11
  | .wInit _ => 10
  | .wLoop _ _ => 9
  | .wNew _ _ => 8
  | .wExit _ _ => 7
  | .wUnlock _ _ => 6
  | .gotTok _ _ | .expired _ | .failed _ => 3
  | .inTok _ _ | .inExpired _ | .inFailed _ => 2
  | .wAbort | .relock _ => 1
  | _ => 0

/-- A step of a thread in a wait with a time limit. -/
theorem limited_step {s s' : St} {t : Nat} {a : Act} {es : List Ev} {p : PC} (h : step s (t, a) = some (s', es)) (hp : s.ths[t]? = some p)
    (hl : p.limited = true) :
    (∃ r, .ret t r ∈ es) ∨ ∃ p', s'.ths[t]? = some p' ∧ p'.limited = true ∧ ((∃ k q, p' = .blocked k q) ∨ (∃ k q, p = .blocked k q) ∨ (∃ k e, p = .wLoop k e ∧ p' = p) ∨ p'.dist < p.dist) := by
  have self : ∀ q : PC, (s.ths.set t q)[t]? = some q := fun q => get_set_self hp
  simp only [step, hp] at h
  cases p <;> cases a <;> (try (simp at h; done)) <;> (try exact Bool.noConfusion hl) <;> dsimp only at h <;> (try split at h) <;> (try split at h) <;> (try split at h) <;> (try cases h)
  all_goals first
    | exact .inl ⟨_, List.mem_singleton.2 rfl⟩
    | exact .inr ⟨_, self _, hl, .inl ⟨_, _, rfl⟩⟩
    | exact .inr ⟨_, self _, hl, .inr (.inl ⟨_, _, rfl⟩)⟩
    | exact .inr ⟨_, self _, rfl, .inr (.inl ⟨_, _, rfl⟩)⟩
    | exact .inr ⟨_, hp, hl, .inr (.inr (.inl ⟨_, _, rfl, rfl⟩))⟩
    | exact .inr ⟨_, self _, hl, .inr (.inr (.inr (of_decide_eq_true rfl)))⟩
    | exact .inr ⟨_, self _, rfl, .inr (.inr (.inr (of_decide_eq_true rfl)))⟩

section
variable {n : Nat} {st : Nat → St} {lbl : Nat → Nat × Act} {ev : Nat → List Ev} (h : Endless step (init n) st lbl ev)
include h

theorem stays {j t : Nat} (hl : (lbl j).1 ≠ t) : (st (j + 1)).ths[t]? = (st j).ths[t]? := step_others (steps h j) (Ne.symm hl)

/-- A wait with a time limit goes on until it ends. -/
theorem limited_on {j t : Nat} {p : PC} (hp : (st j).ths[t]? = some p) (hl : p.limited = true) :
    (∃ r, .ret t r ∈ ev j) ∨ ∃ p', (st (j + 1)).ths[t]? = some p' ∧ p'.limited = true := by
  by_cases he : (lbl j).1 = t
  · have hst := h.next j
    rw [show lbl j = (t, (lbl j).2) by rw [← he]] at hst
    rcases limited_step hst hp hl with h1 | ⟨p', h1, h2, _⟩
    · exact .inl h1
    · exact .inr ⟨p', h1, h2⟩
  · exact .inr ⟨p, by rw [stays h he]; exact hp, hl⟩

/-- Every stage but the sleep is left. -/
theorem stage_left (hs : Served step Next st lbl) (hf : Often fun j => (st j).user = none) {i t : Nat} {p : PC} (hi : (st i).ths[t]? = some p)
    (hl : p.limited = true) (hb : ∀ k q, p ≠ .blocked k q) :
    ∃ j, i ≤ j ∧ ((∃ r, .ret t r ∈ ev j) ∨ ∃ p', (st (j + 1)).ths[t]? = some p' ∧ p'.limited = true ∧ ((∃ k q, p' = .blocked k q) ∨ p'.dist < p.dist)) := by
  have go : (Often fun j => (st j).ths[t]? = some p → Ready step Next (st j) t) → (∀ k e, p ≠ .wLoop k e) →
      ∃ j, i ≤ j ∧ ((∃ r, .ret t r ∈ ev j) ∨ ∃ p', (st (j + 1)).ths[t]? = some p' ∧ p'.limited = true ∧ ((∃ k q, p' = .blocked k q) ∨ p'.dist < p.dist)) := fun hr hw => by
    obtain ⟨j, hj, hq, he⟩ := takes h hs hi hr
    have hst := h.next j
    rw [show lbl j = (t, (lbl j).2) by rw [← he]] at hst
    refine ⟨j, hj, ?_⟩
    rcases limited_step hst hq hl with h1 | ⟨p', h1, h2, h3 | ⟨k, q, h3⟩ | ⟨k, e, h3, _⟩ | h3⟩
    · exact .inl h1
    · exact .inr ⟨p', h1, h2, .inl h3⟩
    · exact absurd h3 (hb k q)
    · exact absurd h3 (hw k e)
    · exact .inr ⟨p', h1, h2, .inr h3⟩
  cases p with
  | wLoop k e =>
    refine Classical.byContradiction fun hn => ?_
    have hall : ∀ j, i ≤ j → (st j).ths[t]? = some (.wLoop k e) := from_on (p := fun j => (st j).ths[t]? = some (.wLoop k e)) hi fun j hj hq => by
      by_cases he : (lbl j).1 = t
      · have hst := h.next j
        rw [show lbl j = (t, (lbl j).2) by rw [← he]] at hst
        rcases limited_step hst hq hl with h1 | ⟨p', h1, h2, h3 | ⟨k, q, h3⟩ | ⟨_, _, _, h3⟩ | h3⟩
        · exact absurd ⟨j, hj, .inl h1⟩ hn
        · exact absurd ⟨j, hj, .inr ⟨p', h1, h2, .inl h3⟩⟩ hn
        · cases h3
        · rw [h1, h3]
        · exact absurd ⟨j, hj, .inr ⟨p', h1, h2, .inr h3⟩⟩ hn
      · rw [stays h he]; exact hq
    obtain ⟨j, hj, ho⟩ := mutex_free h hs.scheduled i
    have := (good h j).locks.own t _ (hall j hj) rfl
    rw [ho] at this; cases this
  | wTimer => exact go (fun m => ⟨m, Nat.le_refl _, fun hq => ⟨.go, _, rfl, by simp only [step, hq]; rfl⟩⟩) nofun
  | relock r =>
    exact go (fun m => by
      obtain ⟨j, hj, hn⟩ := hf m
      exact ⟨j, hj, fun hp => ⟨.go, _, rfl, by simp only [step, hp, hn, if_true]; rfl⟩⟩) nofun
  | wEnter k => exact go (can_go h hs (.inr (.inl ⟨_, .wait k⟩))) nofun
  | gotTok k q => exact go (can_go h hs (.inr (.inl ⟨_, .tok k q⟩))) nofun
  | expired q => exact go (can_go h hs (.inr (.inl ⟨_, .expired q⟩))) nofun
  | failed q => exact go (can_go h hs (.inr (.inl ⟨_, .failed q⟩))) nofun
  | wUnlock k q => exact go (can_go h hs (.inr (.inr ⟨k, q, rfl⟩))) nofun
  | blocked k q => exact absurd rfl (hb k q)
  | wInit _ | wNew _ _ | wExit _ _ | wAbort | inTok _ _ | inExpired _ | inFailed _ => exact go (can_go h hs (.inl rfl)) nofun
  | _ => cases hl

/-- A wait with a time limit sleeps at some time, or ends. -/
theorem limited_sleeps (hs : Served step Next st lbl) (hf : Often fun j => (st j).user = none) {t : Nat} :
    ∀ (d i : Nat) (p : PC), p.dist ≤ d → (st i).ths[t]? = some p → p.limited = true →
      ∃ j, i ≤ j ∧ ((∃ r, .ret t r ∈ ev j) ∨ ∃ k q, k.timed = true ∧ (st j).ths[t]? = some (.blocked k q)) := by
  intro d
  induction d with
  | zero =>
    intro i p hd hp hl
    cases p <;> first | (simp [PC.dist] at hd; done) | (exact Bool.noConfusion hl) | exact ⟨i, Nat.le_refl _, .inr ⟨_, _, hl, hp⟩⟩
  | succ d ih =>
    intro i p hd hp hl
    by_cases hb : ∃ k q, p = .blocked k q
    · obtain ⟨k, q, rfl⟩ := hb
      exact ⟨i, Nat.le_refl _, .inr ⟨k, q, hl, hp⟩⟩
    · obtain ⟨j, hj, h1 | ⟨p', h1, h2, ⟨k, q, rfl⟩ | h3⟩⟩ := stage_left h hs hf hp hl fun k q e => hb ⟨k, q, e⟩
      · exact ⟨j, hj, .inl h1⟩
      · exact ⟨j + 1, by omega, .inr ⟨k, q, h2, h1⟩⟩
      · obtain ⟨k, hk, r⟩ := ih (j + 1) p' (by omega) h1 h2
        exact ⟨k, by omega, r⟩

/-- A wait whose time limit has passed ends. -/
theorem expired_ends (hs : Served step Next st lbl) (hf : Often fun j => (st j).user = none) {i t q : Nat} (hi : (st i).ths[t]? = some (.expired q)) :
    ∃ j, i ≤ j ∧ ∃ r, .ret t r ∈ ev j := by
  obtain ⟨j, hj, hq, he⟩ := takes h hs hi (can_go h hs (.inr (.inl ⟨_, .expired q⟩)))
  have h1 : (st (j + 1)).ths[t]? = some (.inExpired q) := by
    have hst := h.next j
    rw [show lbl j = (t, (lbl j).2) by rw [← he]] at hst
    generalize (lbl j).2 = a at hst
    simp only [step, hq] at hst
    cases a <;> simp at hst
    rw [← hst.2.1]; exact get_set_self hq
  obtain ⟨j2, hj2, hq, he⟩ := takes h hs h1 (can_go h hs (.inl rfl))
  have h2 : ∃ r, (st (j2 + 1)).ths[t]? = some (.relock r) := by
    have hst := h.next j2
    rw [show lbl j2 = (t, (lbl j2).2) by rw [← he]] at hst
    generalize (lbl j2).2 = a at hst
    simp only [step, hq] at hst
    cases a <;> simp at hst
    split at hst
    · cases hst
    · split at hst <;> simp at hst <;> (rw [← hst.1]; exact ⟨_, get_set_self hq⟩)
  obtain ⟨r, h2⟩ := h2
  obtain ⟨k, hk, h3⟩ := relock_ends h hs hf h2
  exact ⟨k, by omega, r, h3⟩

end

end Verif.WinCv
