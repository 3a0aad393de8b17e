import Verif.Proof.Starvation
import Verif.Proof.StarvationSem
import Verif.Proof.StarvationToken

/-!
# Waits of events and semaphores with a time limit (C118)
-/

namespace Verif.Monitor

open Verif.Atomic (Kind Op Ev)
open Verif.Spec.Endless
open Verif.Spec.Alone (get_set)

variable {D S : Type} {M : Mon D S}

/-- The places of a call with a time limit. -/
def PC.timed : PC S → Bool
  | .want .timed | .inside .timed | .asleep .timed | .woken .timed _ | .expired | .early .timed | .taking .timed _ | .leave (.acq .timed) _ => true
  | _ => false

/-- The places after the time limit. -/
def PC.late : PC S → Bool
  | .woken .timed true | .expired | .taking .timed _ | .leave (.acq .timed) _ => true
  | _ => false

/-- How far the call is from its sleep or its end. -/
def PC.dist : PC S → Nat
  | .want _ | .woken _ _ => 4
  | .inside _ | .expired => 3
  | .taking _ _ | .early _ => 2
  | .leave _ _ => 1
  | _ => 0

/-- A call with a time limit is over. -/
def TimedEnds (t : Nat) (es : List (Ev S)) : Prop := (∃ b, .ret t (.acq .timed) b ∈ es) ∨ .threw t (.acq .timed) ∈ es

/-- A step of a thread that is awake in a call with a time limit. -/
theorem timed_own {s s' : St D S} {t : Nat} {a : Act S} {es : List (Ev S)} {pc : PC S} (h : step M s (t, a) = some (s', es)) (ht : s.ths[t]? = some pc)
    (hp : pc.timed = true) (hn : pc ≠ .asleep .timed) :
    TimedEnds t es ∨ ∃ pc', s'.ths[t]? = some pc' ∧ pc'.timed = true ∧ pc'.dist < pc.dist ∧ (pc.late = true → pc'.late = true) := by
  cases pc with
  | want k =>
    cases k <;> cases hp
    cases a <;> simp only [step, ht, reduceCtorEq] at h <;> split at h <;> cases h
    · exact .inr ⟨_, get_set ht, rfl, of_decide_eq_true rfl, nofun⟩
    · exact .inl (.inr (List.mem_singleton.2 rfl))
  | inside k =>
    cases k <;> cases hp
    cases a <;> simp only [step, ht, reduceCtorEq] at h <;> split at h <;> cases h
    · exact .inr ⟨_, get_set ht, rfl, of_decide_eq_true rfl, nofun⟩
    · exact .inr ⟨_, get_set ht, rfl, of_decide_eq_true rfl, nofun⟩
    · exact .inl (.inr (List.mem_singleton.2 rfl))
  | asleep k => cases k <;> first | cases hp; done | exact absurd rfl hn
  | woken k b =>
    cases k <;> cases hp
    cases b
    · cases a <;> simp only [step, ht, reduceCtorEq, Bool.false_eq_true, if_false] at h <;> (repeat' split at h) <;> cases h
      · exact .inr ⟨_, get_set ht, rfl, of_decide_eq_true rfl, nofun⟩
      · exact .inr ⟨_, get_set ht, rfl, of_decide_eq_true rfl, nofun⟩
    · cases a <;> simp only [step, ht, reduceCtorEq, if_true] at h <;> (repeat' split at h) <;> cases h
      exact .inr ⟨_, get_set ht, rfl, of_decide_eq_true rfl, fun _ => rfl⟩
  | expired =>
    cases a <;> simp only [step, ht, reduceCtorEq] at h
    split at h <;> cases h <;> exact .inr ⟨_, get_set ht, rfl, of_decide_eq_true rfl, fun _ => rfl⟩
  | early k =>
    cases k <;> cases hp
    cases a <;> simp only [step, ht, reduceCtorEq] at h
    · cases h
      exact .inr ⟨_, get_set ht, rfl, of_decide_eq_true rfl, nofun⟩
    · split at h <;> cases h
      exact .inl (.inr (List.mem_singleton.2 rfl))
  | taking k b =>
    cases k <;> cases hp
    cases a <;> simp only [step, ht, reduceCtorEq] at h
    cases h
    exact .inr ⟨_, get_set ht, rfl, of_decide_eq_true rfl, fun _ => rfl⟩
  | leave op b =>
    cases op with
    | sig x => cases hp
    | acq k =>
    cases k <;> cases hp
    cases a <;> simp only [step, ht, reduceCtorEq] at h
    cases h
    exact .inl (.inl ⟨_, List.mem_singleton.2 rfl⟩)
  | _ => cases hp

/-- A sleep with a time limit ends by waking up; at the time limit the thread knows. -/
theorem timed_asleep {s s' : St D S} {t : Nat} {a : Act S} {es : List (Ev S)} (h : step M s (t, a) = some (s', es)) (ht : s.ths[t]? = some (.asleep .timed)) :
    ∃ b, s'.ths[t]? = some (.woken .timed b) ∧ (a = .timeout → b = true) := by
  cases a <;> simp only [step, ht, reduceCtorEq] at h <;> cases h
  · exact ⟨_, get_set ht, nofun⟩
  · exact ⟨_, get_set ht, fun _ => rfl⟩

variable {n : Nat} {st : Nat → St D S} {lbl : Nat → Nat × Act S} {ev : Nat → List (Ev S)}

theorem timed_on (h : Endless (step M) (init M n) st lbl ev) {i t : Nat} (hi : ∃ pc, (st i).ths[t]? = some pc ∧ pc.timed = true) :
    TimedEnds t (ev i) ∨ ∃ pc, (st (i + 1)).ths[t]? = some pc ∧ pc.timed = true := by
  obtain ⟨pc, ht, hp⟩ := hi
  by_cases hl : (lbl i).1 = t
  · have hst := h.next i
    rw [show lbl i = (t, (lbl i).2) by rw [← hl]] at hst
    by_cases hn : pc = .asleep .timed
    · subst hn
      obtain ⟨b, e, _⟩ := timed_asleep hst ht
      exact .inr ⟨_, e, rfl⟩
    · rcases timed_own hst ht hp hn with e | ⟨pc', e, hp', _⟩
      · exact .inl e
      · exact .inr ⟨pc', e, hp'⟩
  · rcases other (h.next i) hl ht with e | ⟨k, to, rfl, e, _⟩
    · exact .inr ⟨_, e, hp⟩
    · cases k <;> cases hp
      exact .inr ⟨_, e, rfl⟩

/-- A call with a time limit ends, or comes to its sleep; after the time limit it ends. -/
theorem timed_arrives (h : Endless (step M) (init M n) st lbl ev) (hs : Served (step M) Next st lbl) (d : Nat) : ∀ {i t : Nat} {pc : PC S},
    pc.dist ≤ d → (st i).ths[t]? = some pc → pc.timed = true →
    ∃ j, i ≤ j ∧ (TimedEnds t (ev j) ∨ pc.late = false ∧ (st j).ths[t]? = some (.asleep .timed)) := by
  induction d with
  | zero =>
    intro i t pc hd ht hp
    cases pc with
    | asleep k => cases k <;> cases hp; exact ⟨i, Nat.le_refl _, .inr ⟨rfl, ht⟩⟩
    | _ => first | cases hp; done | cases hd
  | succ d ih =>
    intro i t pc hd ht hp
    by_cases hn : pc = .asleep .timed
    · subst hn
      exact ⟨i, Nat.le_refl _, .inr ⟨rfl, ht⟩⟩
    obtain ⟨j, hj, hj', hl⟩ : ∃ j, i ≤ j ∧ (st j).ths[t]? = some pc ∧ (lbl j).1 = t := by
      by_cases hu : up pc = true
      · exact moves h hs ht hu
      · cases pc with
        | early k =>
          exact hs.scheduled.steps t i (fun i => (st i).ths[t]? = some (.early k)) ht (fun i _ hq => holder_ready hq rfl)
            (fun i _ hq hne => holder_kept h hq rfl hne)
        | asleep k => cases k <;> first | cases hp; done | exact absurd rfl hn
        | leave op b => cases op <;> first | cases hp; done | exact absurd rfl hu
        | _ => first | cases hp; done | exact absurd rfl hu
    have hst := h.next j
    rw [show lbl j = (t, (lbl j).2) by rw [← hl]] at hst
    rcases timed_own hst hj' hp hn with e | ⟨pc', e, hp', hd', hL⟩
    · exact ⟨j, hj, .inl e⟩
    · obtain ⟨k, hk, e' | ⟨h1, h2⟩⟩ := ih (by omega) e hp'
      · exact ⟨k, by omega, .inl e'⟩
      · refine ⟨k, by omega, .inr ⟨?_, h2⟩⟩
        cases hl : pc.late with
        | false => rfl
        | true => rw [hL hl] at h1; cases h1

end Verif.Monitor

namespace Verif.AutoSem

open Verif.Atomic (Kind Op Ev One)
open Verif.Spec.Endless

/-- A call with a time limit is over. -/
def TimedEnds (t : Nat) (es : List (Ev One)) : Prop := (∃ b, .ret t (.acq .timed) b ∈ es) ∨ .threw t (.acq .timed) ∈ es

variable {n : Nat} {st : Nat → St} {lbl : Nat → Nat × Act} {ev : Nat → List (Ev One)}

theorem timed_leaves (h : Endless step (init n) st lbl ev) (hs : Scheduled step Next st lbl) {i t : Nat} {b : Bool}
    (hi : (st i).ths[t]? = some (.leave (.acq .timed) b)) : ∃ j, i ≤ j ∧ TimedEnds t (ev j) := by
  obtain ⟨j, hj, hq, hl⟩ := takes h hs hi fun s hq => ⟨_, by simp only [step, hq]; rfl⟩
  have hst := h.next j
  rw [show lbl j = (t, (lbl j).2) by rw [← hl]] at hst
  refine ⟨j, hj, ?_⟩
  generalize (lbl j).2 = a at hst
  revert hst; generalize st (j + 1) = s', ev j = es; intro hst
  cases a <;> simp only [step, hq, reduceCtorEq] at hst
  cases hst
  exact .inl ⟨_, List.mem_singleton.2 rfl⟩

theorem timed_out_ends (h : Endless step (init n) st lbl ev) (hs : Scheduled step Next st lbl) {i t : Nat}
    (hi : (st i).ths[t]? = some (.wSub .timed)) : ∃ j, i ≤ j ∧ TimedEnds t (ev j) := by
  obtain ⟨j, hj, hq, hl⟩ := takes h hs hi fun s hq => ⟨_, by simp only [step, hq]; rfl⟩
  have hst := h.next j
  rw [show lbl j = (t, (lbl j).2) by rw [← hl]] at hst
  have hlt := (List.getElem?_eq_some_iff.1 hq).1
  have e : (st (j + 1)).ths[t]? = some (.leave (.acq .timed) false) := by
    generalize (lbl j).2 = a at hst
    revert hst; generalize st (j + 1) = s', ev j = es; intro hst
    cases a <;> simp only [step, hq, reduceCtorEq] at hst
    cases hst
    exact List.getElem?_set_self hlt
  obtain ⟨k, hk, e⟩ := timed_leaves h hs e
  exact ⟨k, by omega, e⟩

/-- A wait of the semaphore with a time limit: the permit comes, the time limit passes or it fails. -/
theorem timed_sem (h : Endless step (init n) st lbl ev) {i t : Nat} (hi : (st i).ths[t]? = some (.wSem .timed)) (hl : (lbl i).1 = t) :
    TimedEnds t (ev i) ∨ (∃ b, (st (i + 1)).ths[t]? = some (.leave (.acq .timed) b)) ∨ (st (i + 1)).ths[t]? = some (.wSub .timed) := by
  have hst := h.next i
  rw [show lbl i = (t, (lbl i).2) by rw [← hl]] at hst
  have hlt := (List.getElem?_eq_some_iff.1 hi).1
  generalize (lbl i).2 = a at hst
  revert hst; generalize st (i + 1) = s', ev i = es; intro hst
  cases a <;> simp only [step, hi, reduceCtorEq] at hst
  · split at hst <;> cases hst
    exact .inr (.inl ⟨_, List.getElem?_set_self hlt⟩)
  · split at hst <;> cases hst
    exact .inr (.inr (List.getElem?_set_self hlt))
  · cases hst
    exact .inl (.inr (List.mem_singleton.2 rfl))

/-- A call with a time limit ends, if the thread cannot wait for the semaphore for ever. -/
theorem timed_ends (h : Endless step (init n) st lbl ev) (hs : Scheduled step Next st lbl) {i t : Nat} (hi : (st i).ths[t]? = some (.wAdd .timed))
    (ht : (Often fun j => (st j).ths[t]? = some (.wSem .timed)) → Often fun j => lbl j = (t, .timeout)) : ∃ j, i ≤ j ∧ TimedEnds t (ev j) := by
  obtain ⟨j, hj, hq, hl⟩ := takes h hs hi fun s hq => ⟨_, by simp only [step, hq]; rfl⟩
  have hst := h.next j
  rw [show lbl j = (t, (lbl j).2) by rw [← hl]] at hst
  have hlt := (List.getElem?_eq_some_iff.1 hq).1
  have e : (st (j + 1)).ths[t]? = some (.wSem .timed) := by
    generalize (lbl j).2 = a at hst
    revert hst; generalize st (j + 1) = s', ev j = es; intro hst
    cases a <;> simp only [step, hq, reduceCtorEq] at hst
    cases hst
    exact List.getElem?_set_self hlt
  obtain ⟨k, hk, hq, hl⟩ : ∃ k, j + 1 ≤ k ∧ (st k).ths[t]? = some (.wSem .timed) ∧ (lbl k).1 = t := by
    refine Classical.byContradiction fun hn => ?_
    have hall := from_on (p := fun k => (st k).ths[t]? = some (.wSem .timed)) e fun k hk hq => (keeps h fun hl => hn ⟨k, hk, hq, hl⟩).trans hq
    obtain ⟨k, hk, hl⟩ := ht (fun m => ⟨max m (j + 1), by omega, hall _ (by omega)⟩) (j + 1)
    exact hn ⟨k, hk, hall k hk, by rw [hl]⟩
  rcases timed_sem h hq hl with e | ⟨b, e⟩ | e
  · exact ⟨k, by omega, e⟩
  · obtain ⟨l, hl, r⟩ := timed_leaves h hs e
    exact ⟨l, by omega, r⟩
  · obtain ⟨l, hl, r⟩ := timed_out_ends h hs e
    exact ⟨l, by omega, r⟩

end Verif.AutoSem

namespace Verif.ManualFutex

open Verif.Spec.Endless
open Verif.Spec.Alone (get_set)

/-- The places of a call with a time limit before the futex wait and after it. -/
def PC.awake : PC → Bool
  | .tryLoad .timed | .add .timed | .reload .timed _ | .sub .timed | .timedOut => true
  | _ => false

/-- In the futex wait of a call with a time limit, or about to look at the time and call it. -/
def PC.sleeps : PC → Bool
  | .sleepCall .timed _ _ | .asleep .timed _ => true
  | _ => false

/-- How far the call is from the futex wait or its end. -/
def PC.dist : PC → Nat
  | .tryLoad _ => 4
  | .add _ => 3
  | .reload _ _ => 2
  | _ => 1

/-- A step of a thread that is awake in a call with a time limit. -/
theorem timed_own {s s' : St} {t : Nat} {a : Act} {es : List Ev} {th : Th} (h : step s (t, a) = some (s', es)) (ht : s.ths[t]? = some th)
    (hp : th.pc.awake = true) : (∃ b, .timedDone t b ∈ es) ∨ ∃ th', s'.ths[t]? = some th' ∧ (th.pc ≠ .timedOut) ∧
      (th'.pc.sleeps = true ∨ th'.pc.awake = true ∧ th'.pc.dist < th.pc.dist) := by
  obtain ⟨pc, v⟩ := th
  simp only [step, ht] at h
  cases pc with
  | tryLoad k =>
    cases k <;> cases hp
    cases a <;> simp only [reduceCtorEq, if_false] at h
    split at h <;> cases h
    · exact .inl ⟨_, List.mem_singleton.2 rfl⟩
    · exact .inr ⟨_, get_set ht, nofun, .inr ⟨rfl, of_decide_eq_true rfl⟩⟩
  | add k =>
    cases k <;> cases hp
    cases a <;> simp only [reduceCtorEq] at h
    cases h
    refine .inr ⟨_, get_set ht, nofun, ?_⟩
    dsimp only
    split
    · exact .inr ⟨rfl, of_decide_eq_true rfl⟩
    · exact .inl rfl
  | reload k b =>
    cases k <;> cases hp
    cases a <;> simp only [reduceCtorEq] at h
    (repeat' split at h) <;> cases h
    · exact .inr ⟨_, get_set ht, nofun, .inr ⟨rfl, of_decide_eq_true rfl⟩⟩
    · exact .inr ⟨_, get_set ht, nofun, .inl rfl⟩
  | sub k =>
    cases k <;> cases hp
    cases a <;> simp only [reduceCtorEq] at h
    cases h
    exact .inl ⟨_, List.mem_singleton.2 rfl⟩
  | timedOut =>
    cases a <;> simp only [reduceCtorEq] at h
    cases h
    exact .inl ⟨_, List.mem_singleton.2 rfl⟩
  | _ => cases hp

/-- A step of a thread in the futex wait with a time limit. -/
theorem timed_sleep {s s' : St} {t : Nat} {a : Act} {es : List Ev} {th : Th} (h : step s (t, a) = some (s', es)) (ht : s.ths[t]? = some th)
    (hp : th.pc.sleeps = true) : ∃ th', s'.ths[t]? = some th' ∧ (th'.pc.sleeps = true ∨ th'.pc.awake = true) ∧
      (a = .timeout ∨ a = .expired → th'.pc = .timedOut) := by
  obtain ⟨pc, v⟩ := th
  simp only [step, ht] at h
  cases pc with
  | sleepCall k e b =>
    cases k <;> cases hp
    cases a <;> simp only [reduceCtorEq] at h
    · split at h <;> cases h
      · exact ⟨_, get_set ht, .inl rfl, nofun⟩
      · exact ⟨_, get_set ht, .inr rfl, nofun⟩
    · cases h
      exact ⟨_, get_set ht, .inr rfl, nofun⟩
    · cases h
      exact ⟨_, get_set ht, .inr rfl, fun _ => rfl⟩
  | asleep k b =>
    cases k <;> cases hp
    cases a <;> simp only [reduceCtorEq] at h <;> cases h
    · exact ⟨_, get_set ht, .inr rfl, nofun⟩
    · exact ⟨_, get_set ht, .inr rfl, fun _ => rfl⟩
  | _ => cases hp

theorem awake_ready {s : St} {t : Nat} {th : Th} (hF : Fresh s) (ht : s.ths[t]? = some th) (hp : th.pc.awake = true) : Ready step Next s t := by
  obtain ⟨pc, v⟩ := th
  have hf := hF _ _ ht
  cases pc with
  | reload k b =>
    refine ⟨.load s.word.val, ?_⟩
    simp only [step, ht]
    split
    · next h => rw [if_pos (hf.2 h)]; exact ⟨_, rfl, rfl⟩
    · exact ⟨_, rfl, rfl⟩
  | tryLoad k | add k | sub k =>
    refine ⟨.go, ?_⟩
    simp only [step, ht]
    repeat' split
    all_goals exact ⟨_, trivial, rfl⟩
  | timedOut => exact ⟨.go, _, trivial, by simp only [step, ht]; rfl⟩
  | _ => cases hp

theorem awake_wakeUp {th : Th} (h : th.pc.awake = true) : th.wakeUp = th := by
  obtain ⟨pc, v⟩ := th
  cases pc <;> first | rfl | cases h

theorem sleeps_wakeUp {th : Th} (h : th.pc.sleeps = true) : th.wakeUp.pc.sleeps = true ∨ th.wakeUp.pc.awake = true := by
  obtain ⟨pc, v⟩ := th
  cases pc with
  | asleep k b => cases k <;> cases h; exact .inr rfl
  | sleepCall k e b => exact .inl h
  | _ => cases h

variable {n : Nat} {st : Nat → St} {lbl : Nat → Nat × Act} {ev : Nat → List Ev}

theorem timed_on (h : Endless step (init n) st lbl ev) {i t : Nat} (hi : ∃ th, (st i).ths[t]? = some th ∧ (th.pc.sleeps = true ∨ th.pc.awake = true)) :
    (∃ b, .timedDone t b ∈ ev i) ∨ ∃ th, (st (i + 1)).ths[t]? = some th ∧ (th.pc.sleeps = true ∨ th.pc.awake = true) := by
  obtain ⟨th, ht, hp⟩ := hi
  by_cases hl : (lbl i).1 = t
  · have hst := h.next i
    rw [show lbl i = (t, (lbl i).2) by rw [← hl]] at hst
    rcases hp with hp | hp
    · obtain ⟨th', e, hp', _⟩ := timed_sleep hst ht hp
      exact .inr ⟨th', e, hp'⟩
    · rcases timed_own hst ht hp with e | ⟨th', e, _, hp'⟩
      · exact .inl e
      · exact .inr ⟨th', e, hp'.imp_right And.left⟩
  · rcases other (h.next i) hl ht with e | e
    · exact .inr ⟨_, e, hp⟩
    · refine .inr ⟨_, e, ?_⟩
      rcases hp with hp | hp
      · exact sleeps_wakeUp hp
      · rw [awake_wakeUp hp]; exact .inr hp

/-- A call with a time limit ends, or comes to the futex wait; after the time limit it ends. -/
theorem timed_arrives (h : Endless step (init n) st lbl ev) (hF : ∀ j, Fresh (st j)) (hs : Scheduled step Next st lbl) (d : Nat) : ∀ {i t : Nat} {th : Th},
    th.pc.dist ≤ d → (st i).ths[t]? = some th → th.pc.awake = true →
    ∃ j, i ≤ j ∧ ((∃ b, .timedDone t b ∈ ev j) ∨ th.pc ≠ .timedOut ∧ ∃ th', (st j).ths[t]? = some th' ∧ th'.pc.sleeps = true) := by
  induction d with
  | zero =>
    intro i t th hd ht hp
    obtain ⟨pc, v⟩ := th
    cases pc <;> cases hd
  | succ d ih =>
    intro i t th hd ht hp
    obtain ⟨j, hj, hj', hl⟩ := hs.steps t i (fun i => (st i).ths[t]? = some th) ht (fun j _ hq => awake_ready (hF j) hq hp) fun j _ hq hne => by
      rcases other (h.next j) hne hq with e | e
      · exact e
      · rw [e, awake_wakeUp hp]
    have hst := h.next j
    rw [show lbl j = (t, (lbl j).2) by rw [← hl]] at hst
    rcases timed_own hst hj' hp with e | ⟨th', e, hn, hp' | ⟨hp', hd'⟩⟩
    · exact ⟨j, hj, .inl e⟩
    · exact ⟨j + 1, by omega, .inr ⟨hn, th', e, hp'⟩⟩
    · obtain ⟨k, hk, e' | ⟨_, e'⟩⟩ := ih (by omega) e hp'
      · exact ⟨k, by omega, .inl e'⟩
      · exact ⟨k, by omega, .inr ⟨hn, e'⟩⟩

end Verif.ManualFutex
