import Verif.Proof.CvAnyWake
import Verif.Proof.Endless

/-!
# Notified waits of `condition_variable_any` come back (C115)
-/

namespace Verif.CvAny

open Verif.Spec.Endless

/-- The steps that depend neither on the user nor on the clock nor on a failure of the system. -/
def Next (_ : St) (a : Act) : Prop := a = .go ∨ ∃ u, a = .wakes u

/-- What a thread is doing is changed by others only if it sleeps. -/
theorem step_other {s s' : St} {t u : Nat} {a : Act} {es : List Ev} {p : PC} (h : step s (t, a) = some (s', es)) (hne : u ≠ t) (hu : s.ths[u]? = some p)
    (hp : p.isBlocked = false) : s'.ths[u]? = some p := by
  have hmap : p.wakeUp = p := by cases p <;> first | rfl | exact Bool.noConfusion hp
  have hset : ∀ q : PC, (s.ths.set t q)[u]? = some p := fun q => by rw [get_set_ne (Ne.symm hne)]; exact hu
  unfold step at h
  simp only at h
  split at h
  · cases h
  next pc ht =>
  split at h <;> (try split at h) <;> (try cases h) <;> (try exact hset _) <;> (try exact hu)
  · next v _ k hv =>
    have hvu : v ≠ u := by rintro rfl; rw [hu] at hv; cases hv; exact Bool.noConfusion hp
    show ((s.ths.set v _).set t _)[u]? = _
    rw [get_set_ne (Ne.symm hne), get_set_ne hvu]; exact hu
  · show ((s.ths.map PC.wakeUp).set t _)[u]? = _
    rw [get_set_ne (Ne.symm hne), List.getElem?_map, hu, Option.map_some, hmap]

/-- How many steps the owner of the internal mutex has still to make with it. -/
def PC.hold : PC → Nat
  | .wRelease _ => 4
  | .wClock => 3
  | .wBlock _ | .nSignal _ => 2
  | .wExit _ | .wUnwind | .nUnlock => 1
  | _ => 0

def St.hold (s : St) : Nat :=
  match s.int with
  | none => 0
  | some u => match s.ths[u]? with | some p => p.hold | none => 0

theorem hold_pos {p : PC} (h : p.holdsInt = true) : 0 < p.hold := by cases p <;> first | exact Nat.succ_pos _ | exact Bool.noConfusion h

/-- The owner of the internal mutex releases it or comes nearer to that with each of its steps. -/
theorem hold_step {tr : List Ev} {s s' : St} {u : Nat} {a : Act} {es : List Ev} (I : Inv tr s) (hi : s.int = some u) (h : step s (u, a) = some (s', es)) :
    s'.hold < s.hold := by
  obtain ⟨p, hp⟩ := I.intLt u hi
  have hh := (I.int u p hp).mpr hi
  have hlt := (List.getElem?_eq_some_iff.mp hp).1
  have e0 : s.hold = p.hold := by simp only [St.hold, hi, hp]
  have none : s'.int = none → s'.hold < s.hold := fun h => by rw [e0]; simp only [St.hold, h]; exact hold_pos hh
  have keep : ∀ q : PC, s'.int = s.int → s'.ths[u]? = some q → q.hold < p.hold → s'.hold < s.hold := fun q h1 h2 h3 => by
    rw [e0]; simp only [St.hold, h1, hi, h2]; exact h3
  have hset : ∀ (l : List PC) (q : PC), l.length = s.ths.length → (l.set u q)[u]? = some q := fun l q hl => List.getElem?_set_self (by omega)
  unfold step at h
  simp only [hp] at h
  cases p with
  | nSignal all =>
    cases all <;> cases a <;> (try cases h)
    · simp only at h
      split at h
      · cases h
      · cases h; exact keep _ rfl (hset _ _ rfl) (of_decide_eq_true rfl)
    · simp only at h
      split at h
      · cases h; exact keep _ rfl (hset _ _ (List.length_set ..)) (of_decide_eq_true rfl)
      · cases h
    · exact keep _ rfl (hset _ _ (List.length_map ..)) (of_decide_eq_true rfl)
  | wRelease k =>
    cases a <;> (try cases h)
    · refine keep _ rfl (hset _ _ rfl) ?_
      show PC.hold (if k = .clocked then _ else _) < 4
      split <;> exact of_decide_eq_true rfl
    · exact keep _ rfl (hset _ _ rfl) (of_decide_eq_true rfl)
  | wBlock _ | wClock | wExit _ | wUnwind | nUnlock =>
    cases a <;> (try cases h) <;> first | exact none rfl | exact keep _ rfl (hset _ _ rfl) (of_decide_eq_true rfl)
  | _ => exact Bool.noConfusion hh

/-- Others do not take the internal mutex away. -/
theorem int_other {tr : List Ev} {s s' : St} {t u : Nat} {a : Act} {es : List Ev} (I : Inv tr s) (hi : s.int = some u) (hne : t ≠ u)
    (h : step s (t, a) = some (s', es)) : s'.int = some u ∧ s'.hold = s.hold := by
  obtain ⟨p, hp⟩ := I.intLt u hi
  have hh := (I.int u p hp).mpr hi
  have hp' := step_other h (Ne.symm hne) hp (by cases p <;> first | rfl | exact Bool.noConfusion hh)
  have key : s'.int = s.int := by
    unfold step at h
    simp only at h
    split at h
    · cases h
    next pc ht =>
    have hn : pc.holdsInt = true → False := fun hc => by
      have := (I.int t pc ht).mp hc
      rw [hi] at this; cases this; exact hne rfl
    split at h <;> (try split at h) <;> (try cases h) <;> first | rfl | exact (hn rfl).elim | (rename_i hc; rw [hi] at hc; cases hc)
  exact ⟨key.trans hi, by simp only [St.hold, key, hi, hp, hp']⟩

section
variable {n : Nat} {st : Nat → St} {lbl : Nat → Nat × Act} {ev : Nat → List Ev} (h : Endless step (init n) st lbl ev)
include h

theorem keeps {j t : Nat} {p : PC} (hl : (lbl j).1 ≠ t) (hp : (st j).ths[t]? = some p) (hb : p.isBlocked = false) : (st (j + 1)).ths[t]? = some p := by
  have hst := h.next j
  rw [show lbl j = ((lbl j).1, (lbl j).2) from rfl] at hst
  exact step_other hst (Ne.symm hl) hp hb

/-- The internal mutex is free again and again. -/
theorem int_free (hs : Scheduled step Next st lbl) : Often fun j => (st j).int = none := by
  intro i
  refine hs.lead (fun j => (st j).hold) (fun j u => (st j).int = some u) (fun j => (st j).int = none) i ?_ ?_ ?_ ?_
  · intro j _ hg
    cases hc : (st j).int with
    | none => exact absurd hc hg
    | some u => exact ⟨u, rfl⟩
  · intro j u _ _ hu
    obtain ⟨tr, hx⟩ := h.reachable j
    obtain ⟨p, hp⟩ := (inv_exec hx).intLt u hu
    obtain ⟨a, r, ha, hr⟩ := enabled_of_holdsInt hp (((inv_exec hx).int u p hp).mpr hu)
    exact ⟨a, r, ha, hr⟩
  · intro j u _ _ hu hl
    obtain ⟨tr, hx⟩ := h.reachable j
    have hst := h.next j
    rw [show lbl j = (u, (lbl j).2) by rw [← hl]] at hst
    exact hold_step (inv_exec hx) hu hst
  · intro j u _ _ hu hl
    obtain ⟨tr, hx⟩ := h.reachable j
    have hst := h.next j
    rw [show lbl j = ((lbl j).1, (lbl j).2) from rfl] at hst
    have := int_other (inv_exec hx) hu hl hst
    exact .inr ⟨this.2, this.1⟩

/-- A thread that does not sleep and again and again can go on takes a step. -/
theorem takes (hs : Served step Next st lbl) {i t : Nat} {p : PC} (hi : (st i).ths[t]? = some p) (hb : p.isBlocked = false)
    (hr : Often fun j => (st j).ths[t]? = some p → Ready step Next (st j) t) : ∃ j, i ≤ j ∧ (st j).ths[t]? = some p ∧ (lbl j).1 = t := by
  refine Classical.byContradiction fun hn => ?_
  have hall : ∀ j, i ≤ j → (st j).ths[t]? = some p := from_on (p := fun j => (st j).ths[t]? = some p) hi fun j hj hq =>
    keeps h (fun hl => hn ⟨j, hj, hq, hl⟩) hq hb
  obtain ⟨j, hj, hl⟩ := hs t (fun m => by
    obtain ⟨j, hj, hr⟩ := hr (max m i)
    exact ⟨j, by omega, hr (hall j (by omega))⟩) i
  exact hn ⟨j, hj, hall j hj, hl⟩

/-- A wait that is leaving the condition variable ends. -/
theorem exit_ends (hs : Served step Next st lbl) (hu : Often fun j => (st j).user = none) {i t : Nat} {r : Res} (hi : (st i).ths[t]? = some (.wRelock r)) :
    ∃ j, i ≤ j ∧ (.ret t r ∈ ev j ∨ (r ≠ .threw ∧ .ret t .relockThrew ∈ ev j) ∨ (r = .threw ∧ .terminated t ∈ ev j)) := by
  obtain ⟨j, hj, hp, hl⟩ := takes h hs hi rfl fun m => by
    obtain ⟨j, hj, hn⟩ := hu m
    exact ⟨j, hj, fun hp => ⟨.go, _, .inl rfl, by simp only [step, hp, hn]; rfl⟩⟩
  have hst := h.next j
  rw [show lbl j = (t, (lbl j).2) by rw [← hl]] at hst
  generalize (lbl j).2 = a at hst
  refine ⟨j, hj, ?_⟩
  simp only [step, hp] at hst
  cases a <;> simp at hst
  · exact .inl (by rw [← hst.2.2]; simp)
  · by_cases hr : r = .threw
    · simp [hr] at hst; exact .inr (.inr ⟨hr, by rw [← hst.2]; simp⟩)
    · simp [hr] at hst; exact .inr (.inl ⟨hr, by rw [← hst.2]; simp⟩)

/-- A wait that has been woken ends, unless it reads a clock of the user. -/
theorem woken_ends (hs : Served step Next st lbl) (hu : Often fun j => (st j).user = none) {i t : Nat} {k : Kind} {r : Res}
    (hi : (st i).ths[t]? = some (.wake k r)) (hk : ¬ (k = .clocked ∧ r = .timeout)) :
    ∃ j, i ≤ j ∧ (.ret t r ∈ ev j ∨ (r ≠ .threw ∧ .ret t .relockThrew ∈ ev j) ∨ (r = .threw ∧ .terminated t ∈ ev j)) := by
  obtain ⟨j, hj, hp, hl⟩ := takes h hs hi rfl fun m => by
    obtain ⟨j, hj, hn⟩ := int_free h hs.scheduled m
    exact ⟨j, hj, fun hp => ⟨.go, _, .inl rfl, by simp only [step, hp, hn]; rfl⟩⟩
  have hlt := (List.getElem?_eq_some_iff.mp hp).1
  have h1 : (st (j + 1)).ths[t]? = some (.wExit r) := by
    have hst := h.next j
    rw [show lbl j = (t, (lbl j).2) by rw [← hl]] at hst
    generalize (lbl j).2 = a at hst
    simp only [step, hp] at hst
    cases a <;> simp at hst
    rw [← hst.2.1, if_neg hk]; exact List.getElem?_set_self hlt
  obtain ⟨j2, hj2, hp2, hl2⟩ := takes h hs h1 rfl fun m => ⟨m, Nat.le_refl _, fun hp => ⟨.go, _, .inl rfl, by simp only [step, hp]; rfl⟩⟩
  have hlt2 := (List.getElem?_eq_some_iff.mp hp2).1
  have h2 : (st (j2 + 1)).ths[t]? = some (.wRelock r) := by
    have hst := h.next j2
    rw [show lbl j2 = (t, (lbl j2).2) by rw [← hl2]] at hst
    generalize (lbl j2).2 = a at hst
    simp only [step, hp2] at hst
    cases a <;> simp at hst
    rw [← hst.1]; exact List.getElem?_set_self hlt2
  obtain ⟨j3, hj3, he⟩ := exit_ends h hs hu h2
  exact ⟨j3, by omega, he⟩

/-- A notification takes effect, or the internal mutex could not be locked. -/
theorem notify_acts (hs : Served step Next st lbl) {i t : Nat} {all : Bool} (hi : (st i).ths[t]? = some (.nLock all)) :
    ∃ j, i ≤ j ∧ (.notifyRet t false ∈ ev j ∨ ∃ ws, .notified t all ws ∈ ev j ∧ (st (j + 1)).ths[t]? = some .nUnlock) := by
  obtain ⟨j, hj, hp, hl⟩ := takes h hs hi rfl fun m => by
    obtain ⟨j, hj, hn⟩ := int_free h hs.scheduled m
    exact ⟨j, hj, fun hp => ⟨.go, _, .inl rfl, by simp only [step, hp, hn]; rfl⟩⟩
  have hlt := (List.getElem?_eq_some_iff.mp hp).1
  have h1 : .notifyRet t false ∈ ev j ∨ (st (j + 1)).ths[t]? = some (.nSignal all) := by
    have hst := h.next j
    rw [show lbl j = (t, (lbl j).2) by rw [← hl]] at hst
    generalize (lbl j).2 = a at hst
    simp only [step, hp] at hst
    cases a <;> simp at hst
    · right; rw [← hst.2.1]; exact List.getElem?_set_self hlt
    · left; rw [← hst.2]; simp
  rcases h1 with h1 | h1
  · exact ⟨j, hj, .inl h1⟩
  obtain ⟨j2, hj2, hp2, hl2⟩ := takes h hs h1 rfl fun m => ⟨m, Nat.le_refl _, fun hp => by
    obtain ⟨a, r, ha, hr⟩ := enabled_of_holdsInt hp rfl
    exact ⟨a, r, ha, hr⟩⟩
  have hlt2 := (List.getElem?_eq_some_iff.mp hp2).1
  have hst := h.next j2
  rw [show lbl j2 = (t, (lbl j2).2) by rw [← hl2]] at hst
  generalize (lbl j2).2 = a at hst
  refine ⟨j2, by omega, .inr ?_⟩
  simp only [step, hp2] at hst
  cases all <;> cases a <;> simp at hst
  · obtain ⟨_, e1, e2⟩ := hst
    exact ⟨[], by rw [← e2]; simp, by rw [← e1]; exact List.getElem?_set_self hlt2⟩
  · split at hst
    · next u _ k _ =>
      simp at hst
      exact ⟨[u], by rw [← hst.2]; simp, by rw [← hst.1]; exact List.getElem?_set_self (by rw [List.length_set]; exact hlt2)⟩
    · cases hst
  · exact ⟨_, by rw [← hst.2]; exact List.mem_singleton.mpr rfl, by rw [← hst.1]; exact List.getElem?_set_self (by rw [List.length_map]; exact hlt2)⟩

end

end Verif.CvAny
