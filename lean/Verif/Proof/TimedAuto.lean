import Verif.Proof.StarvationAuto
import Verif.Proof.Starvation

/-!
# `auto_reset_event` over futexes: waits with a time limit, if others leave the word alone (C119)
-/

namespace Verif.AutoFutex

open Verif.Spec.Endless
open Verif.Spec.Alone (get_set)

/-- The places of a call with a time limit before the futex wait and after it. -/
def PC.timedUp : PC → Bool
  | .tryLoad .timed | .tryLoop .timed _ | .add .timed | .waitTop .timed _ | .reload .timed | .cas .timed _ | .toLoad | .toLoop _ => true
  | _ => false

/-- In the futex wait of a call with a time limit, or about to look at the time and call it. -/
def PC.timedSleep : PC → Bool
  | .sleepCall .timed _ | .asleep .timed => true
  | _ => false

/-- After the time limit. -/
def PC.late : PC → Bool
  | .toLoad | .toLoop _ => true
  | _ => false

/-- How far the call is from the futex wait or its end, if the word is `w`. -/
def PC.dist (w : UInt32) : PC → Nat
  | .tryLoad _ => 12
  | .tryLoop _ old => if w = old then 10 else 11
  | .add _ => 9
  | .waitTop _ old => if w = old then 6 else 8
  | .cas _ old => if w = old then 5 else 7
  | .reload _ => 6
  | .toLoad => 3
  | .toLoop old => if w = old then 1 else 2
  | _ => 1

/-- The thread reads the newest value, and its compare-exchanges do not fail without a reason. -/
def Sees (s : St) : Act → Prop
  | .load v => v = s.word.val
  | .casFail _ => False
  | _ => True

/-- A step of a thread that is awake in a call with a time limit. -/
theorem timed_own {s s' : St} {t : Nat} {a : Act} {es : List Ev} {th : Th} (h : step s (t, a) = some (s', es)) (ht : s.ths[t]? = some th)
    (hp : th.pc.timedUp = true) : (∃ b, .timedDone t b ∈ es) ∨ ∃ th', s'.ths[t]? = some th' ∧ (th.pc.late = true → th'.pc.late = true) ∧
      (th'.pc.timedSleep = true ∨ th'.pc.timedUp = true) ∧ (Sees s a → th'.pc.timedSleep = true ∨ th'.pc.timedUp = true ∧ th'.pc.dist s'.word.val < th.pc.dist s.word.val) := by
  obtain ⟨pc, v⟩ := th
  simp only [step, ht] at h
  cases pc with
  | tryLoad k =>
    cases k <;> cases hp
    cases a <;> simp only [reduceCtorEq] at h
    cases h
    refine .inr ⟨_, get_set ht, nofun, .inr rfl, fun hs => .inr ⟨rfl, ?_⟩⟩
    simp only [PC.dist]; split <;> decide
  | tryLoop k old =>
    cases k <;> cases hp
    cases a <;> simp only [reduceCtorEq, if_false] at h
    · split at h
      · split at h <;> cases h
        · exact .inl ⟨_, List.mem_singleton.2 rfl⟩
        · refine .inr ⟨_, get_set ht, nofun, .inr rfl, fun hs => .inr ⟨rfl, ?_⟩⟩
          next hne => simp only [PC.dist, if_true, if_neg hne]; decide
      · cases h
        refine .inr ⟨_, get_set ht, nofun, .inr rfl, fun hs => .inr ⟨rfl, ?_⟩⟩
        simp only [PC.dist]; split <;> decide
    · split at h <;> cases h
      exact .inr ⟨_, get_set ht, nofun, .inr rfl, fun hs => hs.elim⟩
    · split at h <;> cases h
      exact .inl ⟨_, List.mem_singleton.2 rfl⟩
  | add k =>
    cases k <;> cases hp
    cases a <;> simp only [reduceCtorEq] at h
    cases h
    refine .inr ⟨_, get_set ht, nofun, .inr rfl, fun hs => .inr ⟨rfl, ?_⟩⟩
    simp only [PC.dist]; split <;> decide
  | waitTop k old =>
    cases k <;> cases hp
    cases a <;> simp only [reduceCtorEq] at h
    split at h <;> cases h
    · exact .inr ⟨_, get_set ht, nofun, .inl rfl, fun _ => .inl rfl⟩
    · refine .inr ⟨_, get_set ht, nofun, .inr rfl, fun hs => .inr ⟨rfl, ?_⟩⟩
      simp only [PC.dist]; split <;> decide
  | reload k =>
    cases k <;> cases hp
    cases a <;> simp only [reduceCtorEq] at h
    split at h <;> cases h
    · refine .inr ⟨_, get_set ht, nofun, .inr rfl, fun hs => .inr ⟨rfl, ?_⟩⟩
      rw [show _ = s.word.val from hs]; simp only [PC.dist, if_true]; decide
    · exact .inr ⟨_, get_set ht, nofun, .inl rfl, fun _ => .inl rfl⟩
  | cas k old =>
    cases k <;> cases hp
    cases a <;> simp only [reduceCtorEq] at h
    · split at h <;> cases h
      · exact .inl ⟨_, List.mem_singleton.2 rfl⟩
      · refine .inr ⟨_, get_set ht, nofun, .inr rfl, fun hs => .inr ⟨rfl, ?_⟩⟩
        next hne => simp only [PC.dist, if_true, if_neg hne]; decide
    · cases h
      exact .inr ⟨_, get_set ht, nofun, .inr rfl, fun hs => hs.elim⟩
  | toLoad =>
    cases a <;> simp only [reduceCtorEq] at h
    cases h
    refine .inr ⟨_, get_set ht, fun _ => rfl, .inr rfl, fun hs => .inr ⟨rfl, ?_⟩⟩
    simp only [PC.dist]; split <;> decide
  | toLoop old =>
    cases a <;> simp only [reduceCtorEq] at h
    · split at h <;> split at h <;> cases h
      · exact .inl ⟨_, List.mem_singleton.2 rfl⟩
      · refine .inr ⟨_, get_set ht, fun _ => rfl, .inr rfl, fun hs => .inr ⟨rfl, ?_⟩⟩
        next hne => simp only [PC.dist, if_true, if_neg hne]; decide
      · exact .inl ⟨_, List.mem_singleton.2 rfl⟩
      · refine .inr ⟨_, get_set ht, fun _ => rfl, .inr rfl, fun hs => .inr ⟨rfl, ?_⟩⟩
        next hne => simp only [PC.dist, if_true, if_neg hne]; decide
    · cases h
      exact .inr ⟨_, get_set ht, fun _ => rfl, .inr rfl, fun hs => hs.elim⟩
  | _ => cases hp

/-- A step of a thread in the futex wait with a time limit. -/
theorem timed_sleep {s s' : St} {t : Nat} {a : Act} {es : List Ev} {th : Th} (h : step s (t, a) = some (s', es)) (ht : s.ths[t]? = some th)
    (hp : th.pc.timedSleep = true) : ∃ th', s'.ths[t]? = some th' ∧ (th'.pc.timedSleep = true ∨ th'.pc.timedUp = true) ∧
      (a = .timeout ∨ a = .expired → th'.pc = .toLoad) := by
  obtain ⟨pc, v⟩ := th
  simp only [step, ht] at h
  cases pc with
  | sleepCall k e =>
    cases k <;> cases hp
    cases a <;> simp only [reduceCtorEq] at h
    · split at h <;> cases h
      · exact ⟨_, get_set ht, .inl rfl, nofun⟩
      · exact ⟨_, get_set ht, .inr rfl, nofun⟩
    · cases h
      exact ⟨_, get_set ht, .inr rfl, nofun⟩
    · cases h
      exact ⟨_, get_set ht, .inr rfl, fun _ => rfl⟩
  | asleep k =>
    cases k <;> cases hp
    cases a <;> simp only [reduceCtorEq] at h <;> cases h
    · exact ⟨_, get_set ht, .inr rfl, nofun⟩
    · exact ⟨_, get_set ht, .inr rfl, fun _ => rfl⟩
  | _ => cases hp

theorem timedUp_ready {s : St} {t : Nat} {th : Th} (ht : s.ths[t]? = some th) (hp : th.pc.timedUp = true) : Ready step Next s t := by
  obtain ⟨pc, v⟩ := th
  cases pc with
  | tryLoad k | toLoad => exact ⟨.load s.word.val, _, rfl, by simp only [step, ht]; rfl⟩
  | reload k =>
    refine ⟨.load s.word.val, ?_⟩
    simp only [step, ht]
    split <;> exact ⟨_, rfl, rfl⟩
  | tryLoop k old | add k | waitTop k old | cas k old | toLoop old =>
    refine ⟨.go, ?_⟩
    simp only [step, ht]
    repeat' split
    all_goals exact ⟨_, trivial, rfl⟩
  | _ => cases hp

/-- A thread that is awake and finds that the time limit has passed returns. -/
theorem timed_expired {s s' : St} {t : Nat} {a : Act} {es : List Ev} {th : Th} (h : step s (t, a) = some (s', es)) (ht : s.ths[t]? = some th)
    (hp : th.pc.timedUp = true) (ha : a = .timeout ∨ a = .expired) : ∃ b, .timedDone t b ∈ es := by
  obtain ⟨pc, v⟩ := th
  cases pc with
  | tryLoop k old =>
    cases k <;> cases hp
    rcases ha with rfl | rfl <;> simp only [step, ht, reduceCtorEq] at h
    split at h <;> cases h
    exact ⟨_, List.mem_singleton.2 rfl⟩
  | tryLoad k | add k | waitTop k old | reload k | cas k old => cases k <;> cases hp; rcases ha with rfl | rfl <;> simp only [step, ht, reduceCtorEq] at h
  | toLoad | toLoop old => rcases ha with rfl | rfl <;> simp only [step, ht, reduceCtorEq] at h
  | _ => cases hp

/-- The beginning of a call with a time limit. -/
theorem timed_called {s s' : St} {u t : Nat} {a : Act} {es : List Ev} (h : step s (u, a) = some (s', es)) (he : .called t .timedWait ∈ es) :
    ∃ th, s'.ths[t]? = some th ∧ th.pc.timedUp = true := by
  cases hth : s.ths[u]? with
  | none => simp [step, hth] at h
  | some x =>
  obtain ⟨pc, v⟩ := x
  cases a
  case' call op => cases op
  all_goals cases pc
  all_goals simp only [step, hth, reduceCtorEq] at h
  all_goals repeat' (split at h)
  all_goals first
    | contradiction
    | (simp only [reduceCtorEq] at h; done)
    | (obtain ⟨rfl, rfl⟩ := Prod.mk.inj (Option.some.inj h))
  all_goals first
    | (exfalso; simp at he; done)
    | (exfalso; rename_i k _ _ _; cases k <;> simp [retEv] at he; done)
    | (exfalso; rename_i k _ _; cases k <;> simp [retEv] at he; done)
    | (exfalso; rename_i k _; cases k <;> simp [retEv] at he; done)
    | skip
  simp only [List.mem_singleton, Ev.called.injEq, and_true] at he
  subst he
  exact ⟨_, get_set hth, rfl⟩

variable {n : Nat} {st : Nat → St} {lbl : Nat → Nat × Act} {ev : Nat → List Ev}

theorem timed_on (h : Endless step (init n) st lbl ev) {i t : Nat} (hi : ∃ th, (st i).ths[t]? = some th ∧ (th.pc.timedSleep = true ∨ th.pc.timedUp = true)) :
    (∃ b, .timedDone t b ∈ ev i) ∨ ∃ th, (st (i + 1)).ths[t]? = some th ∧ (th.pc.timedSleep = true ∨ th.pc.timedUp = true) := by
  obtain ⟨th, ht, hp⟩ := hi
  by_cases hl : (lbl i).1 = t
  · have hst := h.next i
    rw [show lbl i = (t, (lbl i).2) by rw [← hl]] at hst
    rcases hp with hp | hp
    · obtain ⟨th', e, hp', _⟩ := timed_sleep hst ht hp
      exact .inr ⟨th', e, hp'⟩
    · rcases timed_own hst ht hp with e | ⟨th', e, _, hp', _⟩
      · exact .inl e
      · exact .inr ⟨th', e, hp'⟩
  · rcases other (h.next i) hl ht with e | ⟨k, hk, e⟩
    · exact .inr ⟨_, e, hp⟩
    · refine .inr ⟨_, e, .inr ?_⟩
      rw [hk] at hp
      cases k <;> first | rfl | (rcases hp with hp | hp <;> cases hp)

/-- If others leave the word alone, a call with a time limit ends or comes to the futex wait; after the time limit it ends. -/
theorem timed_arrives (h : Endless step (init n) st lbl ev) (hs : Scheduled step Next st lbl) {t k : Nat}
    (hsee : ∀ j, k ≤ j → (lbl j).1 = t → Sees (st j) (lbl j).2) (hq : ∀ j, k ≤ j → (lbl j).1 ≠ t → (st (j + 1)).word.val = (st j).word.val) (d : Nat) :
    ∀ {i : Nat} {th : Th}, k ≤ i → th.pc.dist (st i).word.val ≤ d → (st i).ths[t]? = some th → th.pc.timedUp = true →
    ∃ j, i ≤ j ∧ ((∃ b, .timedDone t b ∈ ev j) ∨ th.pc.late = false ∧ ∃ th', (st j).ths[t]? = some th' ∧ th'.pc.timedSleep = true) := by
  induction d with
  | zero =>
    intro i th _ hd ht hp
    exfalso
    obtain ⟨pc, v⟩ := th
    cases pc <;> simp only [PC.dist] at hd <;> (try split at hd) <;> omega
  | succ d ih =>
    intro i th hk hd ht hp
    obtain ⟨j, hj, ⟨hj', hw⟩, hl⟩ := hs.steps t i (fun j => (st j).ths[t]? = some th ∧ (st j).word.val = (st i).word.val) ⟨ht, rfl⟩
      (fun j _ hq => timedUp_ready hq.1 hp) fun j hij hq' hne => by
        refine ⟨?_, (hq j (by omega) hne).trans hq'.2⟩
        rcases other (h.next j) hne hq'.1 with e | ⟨k, hk, e⟩
        · exact e
        · rw [hk] at hp; cases hp
    have hst := h.next j
    rw [show lbl j = (t, (lbl j).2) by rw [← hl]] at hst
    rcases timed_own hst hj' hp with e | ⟨th', e, hL, _, hd'⟩
    · exact ⟨j, hj, .inl e⟩
    · rcases hd' (hsee j (by omega) hl) with hp' | ⟨hp', hd'⟩
      · refine ⟨j + 1, by omega, .inr ⟨?_, th', e, hp'⟩⟩
        cases hl : th.pc.late with
        | false => rfl
        | true =>
          have hl' := hL hl
          obtain ⟨pc', v'⟩ := th'
          cases pc' <;> first | cases hp'; done | cases hl'
      · rw [hw] at hd'
        obtain ⟨m, hm, e' | ⟨h1, h2⟩⟩ := ih (by omega) (by omega) e hp'
        · exact ⟨m, by omega, .inl e'⟩
        · refine ⟨m, by omega, .inr ⟨?_, h2⟩⟩
          cases hl : th.pc.late with
          | false => rfl
          | true => rw [hL hl] at h1; cases h1

end Verif.AutoFutex
