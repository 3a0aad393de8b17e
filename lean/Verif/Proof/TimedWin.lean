import Verif.Proof.StarvationWin
import Verif.Proof.Starvation

/-!
# Timed mutex of Windows: lock functions with a time limit, if others leave the word alone (C119)
-/

namespace Verif.WinMutex

open Verif.Spec.Endless
open Verif.Spec.Alone (get_set)

/-- The places of a lock function with a time limit, without the wait for the event. -/
def PC.timedUp : PC → Bool
  | .tryBts .timed | .load .timed | .mark .timed _ | .clr .timed _ | .sub .timed _ => true
  | _ => false

/-- The wait for the event. -/
def PC.timedSleep : PC → Bool
  | .evWait .timed _ => true
  | _ => false

/-- After a time-out or a failure. -/
def PC.late : PC → Bool
  | .sub .timed _ => true
  | _ => false

/-- How far the call is from the wait for the event or its end, if the word is `w`. -/
def PC.dist (w : UInt32) : PC → Nat
  | .tryBts _ => 6
  | .load _ => 5
  | .mark _ old => if w = old then 3 else 4
  | .clr _ old => if w = old then 2 else 3
  | _ => 1

/-- The thread reads the newest value, its compare-exchanges do not fail without a reason, and a time-out of the system is the end of its time. -/
def Sees (s : St) : Act → Prop
  | .load v => v = s.word.val
  | .fail _ | .again => False
  | _ => True

/-- A lock function with a time limit returns or throws. -/
def TimedEnds (t : Nat) (es : List Ev) : Prop := (∃ p, .acquired t .timed p ∈ es) ∨ .failed t .timed ∈ es ∨ .threw t .timed ∈ es

/-- A step of a thread in a lock function with a time limit. -/
theorem timed_own {s s' : St} {t : Nat} {a : Act} {es : List Ev} {th : Th} (h : step s (t, a) = some (s', es)) (ht : s.ths[t]? = some th)
    (hp : th.pc.timedUp = true) : TimedEnds t es ∨ ∃ th', s'.ths[t]? = some th' ∧ (th'.pc.timedSleep = true ∨ th'.pc.timedUp = true) ∧
      (Sees s a → th.pc.late = false ∧ (th'.pc.timedSleep = true ∨ th'.pc.timedUp = true ∧ th'.pc.dist s'.word.val < th.pc.dist s.word.val)) := by
  obtain ⟨pc, v⟩ := th
  simp only [step, ht] at h
  cases pc with
  | tryBts k =>
    cases k <;> cases hp
    cases a <;> simp only [reduceCtorEq, if_false] at h
    split at h <;> cases h
    · exact .inr ⟨_, get_set ht, .inr rfl, fun hs => ⟨rfl, .inr ⟨rfl, of_decide_eq_true rfl⟩⟩⟩
    · exact .inl (.inl ⟨_, List.mem_singleton.2 rfl⟩)
  | load k =>
    cases k <;> cases hp
    cases a <;> simp only [reduceCtorEq] at h <;> cases h
    · refine .inr ⟨_, get_set ht, .inr rfl, fun hs => ⟨rfl, .inr ⟨rfl, ?_⟩⟩⟩
      simp only [PC.dist]; split <;> decide
    · refine .inr ⟨_, get_set ht, .inr rfl, fun hs => ⟨rfl, .inr ⟨rfl, ?_⟩⟩⟩
      simp only [PC.dist]; split <;> decide
    · exact .inl (.inr (.inl (List.mem_singleton.2 rfl)))
  | mark k old =>
    cases k <;> cases hp
    cases a <;> simp only [reduceCtorEq] at h
    · split at h
      · split at h <;> cases h
        · exact .inr ⟨_, get_set ht, .inl rfl, fun _ => ⟨rfl, .inl rfl⟩⟩
        · exact .inl (.inl ⟨_, List.mem_singleton.2 rfl⟩)
      · cases h
        refine .inr ⟨_, get_set ht, .inr rfl, fun hs => ⟨rfl, .inr ⟨rfl, ?_⟩⟩⟩
        next hne => simp only [PC.dist, if_true, if_neg hne]; decide
    · cases h
      exact .inr ⟨_, get_set ht, .inr rfl, fun hs => hs.elim⟩
  | clr k old =>
    cases k <;> cases hp
    cases a <;> simp only [reduceCtorEq] at h
    · split at h
      · split at h <;> cases h
        · exact .inr ⟨_, get_set ht, .inl rfl, fun _ => ⟨rfl, .inl rfl⟩⟩
        · exact .inl (.inl ⟨_, List.mem_singleton.2 rfl⟩)
      · cases h
        refine .inr ⟨_, get_set ht, .inr rfl, fun hs => ⟨rfl, .inr ⟨rfl, ?_⟩⟩⟩
        next hne => simp only [PC.dist, if_true, if_neg hne]; decide
    · cases h
      exact .inr ⟨_, get_set ht, .inr rfl, fun hs => hs.elim⟩
  | sub k thr =>
    cases k <;> cases hp
    cases thr <;> cases a <;> simp only [reduceCtorEq] at h <;> cases h
    · exact .inl (.inr (.inl (List.mem_singleton.2 rfl)))
    · exact .inr ⟨_, get_set ht, .inr rfl, fun hs => hs.elim⟩
    · exact .inl (.inr (.inr (List.mem_singleton.2 rfl)))
  | _ => cases hp

/-- A step of a thread that waits for the event with a time limit. -/
theorem timed_sleep {s s' : St} {t : Nat} {a : Act} {es : List Ev} {th : Th} (h : step s (t, a) = some (s', es)) (ht : s.ths[t]? = some th)
    (hp : th.pc.timedSleep = true) : ∃ th', s'.ths[t]? = some th' ∧ th'.pc.timedUp = true ∧ (a = .timeout ∨ a = .expired → th'.pc = .sub .timed false) := by
  obtain ⟨pc, v⟩ := th
  simp only [step, ht] at h
  cases pc with
  | evWait k old =>
    cases k <;> cases hp
    cases a <;> simp only [reduceCtorEq] at h
    · split at h <;> cases h
      exact ⟨_, get_set ht, rfl, nofun⟩
    · cases h
      exact ⟨_, get_set ht, rfl, nofun⟩
    · cases h
      exact ⟨_, get_set ht, rfl, fun _ => rfl⟩
  | _ => cases hp

/-- A thread that does not wait for the event and finds that the time limit has passed returns. -/
theorem timed_expired {s s' : St} {t : Nat} {a : Act} {es : List Ev} {th : Th} (h : step s (t, a) = some (s', es)) (ht : s.ths[t]? = some th)
    (hp : th.pc.timedUp = true) (ha : a = .timeout ∨ a = .expired) : TimedEnds t es := by
  obtain ⟨pc, v⟩ := th
  cases pc with
  | load k =>
    cases k <;> cases hp
    rcases ha with rfl | rfl <;> simp only [step, ht, reduceCtorEq] at h
    cases h
    exact .inr (.inl (List.mem_singleton.2 rfl))
  | tryBts k | mark k old | clr k old | sub k b => cases k <;> cases hp; rcases ha with rfl | rfl <;> simp only [step, ht, reduceCtorEq] at h
  | _ => cases hp

theorem timedUp_ready {s : St} {t : Nat} {th : Th} (ht : s.ths[t]? = some th) (hp : th.pc.timedUp = true) : Ready step Next s t := by
  obtain ⟨pc, v⟩ := th
  cases pc with
  | tryBts k | load k | mark k old | clr k old | sub k b =>
    refine ⟨.go, ?_⟩
    simp only [step, ht]
    repeat' split
    all_goals exact ⟨_, trivial, rfl⟩
  | _ => cases hp

/-- The beginning of a call with a time limit. -/
theorem timed_called {s s' : St} {u t : Nat} {a : Act} {es : List Ev} (h : step s (u, a) = some (s', es)) (he : .called t .timed ∈ es) :
    ∃ th, s'.ths[t]? = some th ∧ th.pc.timedUp = true := by
  cases hth : s.ths[u]? with
  | none => simp [step, hth] at h
  | some x =>
  obtain ⟨pc, v⟩ := x
  cases a
  all_goals cases pc
  all_goals (try (rename_i k b; cases k <;> cases b)) 
  all_goals simp only [step, hth, reduceCtorEq] at h
  all_goals repeat' (split at h)
  all_goals first
    | contradiction
    | (simp only [reduceCtorEq] at h; done)
    | (obtain ⟨rfl, rfl⟩ := Prod.mk.inj (Option.some.inj h))
  all_goals first
    | (exfalso; revert he; (repeat' split) <;> simp; done)
    | skip
  all_goals
    simp only [List.mem_singleton, Ev.called.injEq] at he
    obtain ⟨rfl, rfl⟩ := he
    exact ⟨_, get_set hth, rfl⟩

variable {n : Nat} {st : Nat → St} {lbl : Nat → Nat × Act} {ev : Nat → List Ev}

theorem timed_on (h : Endless step (init n) st lbl ev) {i t : Nat} (hi : ∃ th, (st i).ths[t]? = some th ∧ (th.pc.timedSleep = true ∨ th.pc.timedUp = true)) :
    TimedEnds t (ev i) ∨ ∃ th, (st (i + 1)).ths[t]? = some th ∧ (th.pc.timedSleep = true ∨ th.pc.timedUp = true) := by
  obtain ⟨th, ht, hp⟩ := hi
  by_cases hl : (lbl i).1 = t
  · have hst := h.next i
    rw [show lbl i = (t, (lbl i).2) by rw [← hl]] at hst
    rcases hp with hp | hp
    · obtain ⟨th', e, hp', _⟩ := timed_sleep hst ht hp
      exact .inr ⟨th', e, .inr hp'⟩
    · rcases timed_own hst ht hp with e | ⟨th', e, hp', _⟩
      · exact .inl e
      · exact .inr ⟨th', e, hp'⟩
  · exact .inr ⟨_, (other (h.next i) hl).trans ht, hp⟩

/-- If others leave the word alone, a call with a time limit ends or comes to the wait for the event; after a time-out it ends. -/
theorem timed_arrives (h : Endless step (init n) st lbl ev) (hs : Scheduled step Next st lbl) {t k : Nat}
    (hsee : ∀ j, k ≤ j → (lbl j).1 = t → Sees (st j) (lbl j).2) (hq : ∀ j, k ≤ j → (lbl j).1 ≠ t → (st (j + 1)).word.val = (st j).word.val) (d : Nat) :
    ∀ {i : Nat} {th : Th}, k ≤ i → th.pc.dist (st i).word.val ≤ d → (st i).ths[t]? = some th → th.pc.timedUp = true →
    ∃ j, i ≤ j ∧ (TimedEnds t (ev j) ∨ th.pc.late = false ∧ ∃ th', (st j).ths[t]? = some th' ∧ th'.pc.timedSleep = true) := by
  induction d with
  | zero =>
    intro i th _ hd ht hp
    exfalso
    obtain ⟨pc, v⟩ := th
    cases pc <;> simp only [PC.dist] at hd <;> (try split at hd) <;> omega
  | succ d ih =>
    intro i th hk hd ht hp
    obtain ⟨j, hj, ⟨hj', hw⟩, hl⟩ := hs.steps t i (fun j => (st j).ths[t]? = some th ∧ (st j).word.val = (st i).word.val) ⟨ht, rfl⟩
      (fun j _ hq => timedUp_ready hq.1 hp) fun j hij hq' hne => ⟨(other (h.next j) hne).trans hq'.1, (hq j (by omega) hne).trans hq'.2⟩
    have hst := h.next j
    rw [show lbl j = (t, (lbl j).2) by rw [← hl]] at hst
    rcases timed_own hst hj' hp with e | ⟨th', e, _, hd'⟩
    · exact ⟨j, hj, .inl e⟩
    · obtain ⟨hL, hp' | ⟨hp', hd'⟩⟩ := hd' (hsee j (by omega) hl)
      · exact ⟨j + 1, by omega, .inr ⟨hL, th', e, hp'⟩⟩
      · rw [hw] at hd'
        obtain ⟨m, hm, e' | ⟨h1, h2⟩⟩ := ih (by omega) (by omega) e hp'
        · exact ⟨m, by omega, .inl e'⟩
        · exact ⟨m, by omega, .inr ⟨hL, h2⟩⟩

end Verif.WinMutex
