import Verif.Proof.Alone
import Verif.Spec.Held
import Verif.Proof.Monitor
import Verif.Proof.CvAny
import Verif.Proof.CondVarPosix

/-! # Lemmas for C112 -/

namespace Verif.Monitor

open Verif.Atomic (Kind Op Ev)
open Verif.Spec.Alone

variable {D S : Type}

namespace Hd

/-- The call a thread is executing. -/
def opOf : PC S → Option (Op S)
  | .idle => none
  | .want k | .inside k | .asleep k | .woken k _ | .early k | .taking k _ => some (.acq k)
  | .expired => some (.acq .timed)
  | .wantSig x | .sig x | .notifying x _ => some (.sig x)
  | .leave op _ => some op

/-- Steps left until the call returns, or the thread sleeps. -/
def left : PC S → Nat
  | .idle | .asleep _ => 0
  | .want _ | .wantSig _ | .woken _ _ => 4
  | .inside _ | .expired | .sig _ => 3
  | .taking _ _ | .notifying _ _ => 2
  | .leave _ _ | .early _ => 1

def pcOf (s : St D S) (t : Nat) : PC S := s.ths[t]?.getD .idle

/-- Neither asleep nor awakened in a `try`. -/
def PC.noTry : PC S → Prop
  | .asleep k | .woken k _ | .early k => k ≠ .tryWait
  | _ => True

/-- At work: inside a call, and able to lock the mutex. -/
def Works (op : Op S) (t : Nat) (s : St D S) : Prop :=
  ∃ pc, s.ths[t]? = some pc ∧ opOf pc = some op ∧ pc.isAsleep = false ∧ (pc.holding = false → s.owner = none) ∧
    (∀ k, pc = .woken k true ∨ pc = .taking k true → k = .timed) ∧ PC.noTry pc

theorem noTry_step {M : Mon D S} {s s' : St D S} {l : Nat × Act S} {es : List (Ev S)}
    (I : ∀ (i : Nat) (pc : PC S), s.ths[i]? = some pc → PC.noTry pc) (hs : step M s l = some (s', es)) :
    ∀ (i : Nat) (pc : PC S), s'.ths[i]? = some pc → PC.noTry pc := by
  obtain ⟨t, a⟩ := l
  have hset : ∀ {ths : List (PC S)} {u : Nat} {pc' : PC S}, (∀ (i : Nat) (pc : PC S), ths[i]? = some pc → PC.noTry pc) → PC.noTry pc' →
      ∀ (i : Nat) (pc : PC S), (ths.set u pc')[i]? = some pc → PC.noTry pc := by
    intro ths u pc' H hp i pc hi
    rcases get_set_cases hi with ⟨_, rfl⟩ | ⟨_, hi⟩
    · exact hp
    · exact H i pc hi
  cases ht : s.ths[t]? with
  | none => simp [step, ht] at hs
  | some pc =>
    have hp := I t pc ht
    cases pc
    all_goals try (rename_i b; cases b)
    all_goals cases a
    all_goals simp only [step, ht, reduceCtorEq] at hs
    all_goals repeat' (split at hs)
    all_goals first
      | contradiction
      | (simp only [reduceCtorEq] at hs; done)
      | (obtain ⟨rfl, rfl⟩ := Prod.mk.inj (Option.some.inj hs))
    all_goals first
      | exact hset I trivial
      | exact hset I hp
      | (refine hset I ?_; simp_all [PC.noTry]; done)
      | (refine hset (hset I ?_) trivial; exact (by decide : Kind.timed ≠ .tryWait))
      | (intro i pc hi
         rw [List.getElem?_map] at hi
         cases hx : (s.ths.set t _)[i]? with
         | none => rw [hx] at hi; cases hi
         | some x =>
           rw [hx] at hi
           cases hi
           have hn := hset I (pc' := .leave (.sig _) true) trivial i x hx
           cases x <;> exact hn)
      | (rename_i k _ heq
         have hw := I _ _ heq
         exact hset (hset I (pc' := .woken k false) hw) trivial)

theorem noTry_exec {M : Mon D S} {n : Nat} {tr : List (Ev S)} {s : St D S} (h : Exec (step M) (init M n) tr s) :
    ∀ (i : Nat) (pc : PC S), s.ths[i]? = some pc → PC.noTry pc :=
  h.invariant' (fun s => ∀ (i : Nat) (pc : PC S), s.ths[i]? = some pc → PC.noTry pc)
    (fun i pc hi => by rw [get_replicate hi]; trivial) (fun _ _ _ _ I hs => noTry_step I hs)

theorem works_of_exec {M : Mon D S} {n : Nat} {tr : List (Ev S)} {s : St D S} (h : Exec (step M) (init M n) tr s) {t : Nat} {pc : PC S}
    {op : Op S} (ht : s.ths[t]? = some pc) (hop : opOf pc = some op) (hs : ¬ Sleeps t s) (ho : s.owner = none ∨ s.owner = some t) :
    Works op t s := by
  have I := inv_exec h
  refine ⟨pc, ht, hop, ?_, ?_, ?_, noTry_exec h t pc ht⟩
  · cases pc <;> first | rfl | exact absurd ⟨_, ht⟩ hs
  · intro hh
    rcases ho with ho | ho
    · exact ho
    · rw [(I.own t pc ht).mpr ho] at hh; cases hh
  · intro k hk
    rcases hk with hk | hk
    · exact (I.kinds t pc ht).1 k hk
    · exact (I.kinds t pc ht).2 k hk

theorem notify_go {M : Mon D S} {t : Nat} {s : St D S} {x : S} {all : Bool} (ht : s.ths[t]? = some (.notifying x all)) :
    ∃ a r, step M s (t, a) = some r := by
  cases all
  · by_cases h : s.ths.countP PC.isAsleep = 0
    · exact ⟨.go, _, by simp only [step, ht, h, if_true]; rfl⟩
    · obtain ⟨y, hy, ha⟩ := List.countP_pos_iff.mp (Nat.pos_of_ne_zero h)
      obtain ⟨j, hj⟩ := List.mem_iff_getElem?.mp hy
      cases y <;> simp only [PC.isAsleep, Bool.false_eq_true] at ha
      rename_i k
      refine ⟨.wake j false, ?_⟩
      simp only [step, ht, hj]
      cases k <;> exact ⟨_, rfl⟩
  · exact ⟨.go, _, by simp only [step, ht]; rfl⟩

theorem progress {M : Mon D S} {op : Op S} {t : Nat} {s : St D S} (h : Works op t s) : ∃ a r, step M s (t, a) = some r := by
  obtain ⟨pc, ht, hop, hna, ho, hk, hn⟩ := h
  cases pc with
  | idle => simp [opOf] at hop
  | asleep k => simp [PC.isAsleep] at hna
  | want k => exact ⟨.go, _, by simp only [step, ht, ho rfl, if_true]; rfl⟩
  | wantSig x => exact ⟨.go, _, by simp only [step, ht, ho rfl, if_true]; rfl⟩
  | woken k b => exact ⟨.go, by simp only [step, ht, ho rfl, if_true]; exact ⟨_, rfl⟩⟩
  | inside k =>
    refine ⟨.go, ?_⟩
    simp only [step, ht]
    cases k <;> split <;> exact ⟨_, rfl⟩
  | notifying x all => exact notify_go ht
  | _ =>
    refine ⟨.go, ?_⟩
    simp only [step, ht]
    (repeat' split) <;> exact ⟨_, rfl⟩

theorem get_set2 {β : Type} {l : List β} {t v : Nat} {x y z : β} (h : l[t]? = some x) : ((l.set v z).set t y)[t]? = some y :=
  List.getElem?_set_self (by rw [List.length_set]; exact (List.getElem?_eq_some_iff.mp h).1)

theorem arrive {op : Op S} {t : Nat} {s s' : St D S} {pc pc' : PC S} {es : List (Ev S)} (ht : s.ths[t]? = some pc) (ht' : s'.ths[t]? = some pc')
    (hop : opOf pc' = some op) (hna : pc'.isAsleep = false) (hh : pc'.holding = true)
    (hk : ∀ k, pc' = .woken k true ∨ pc' = .taking k true → k = .timed) (hn : PC.noTry pc') (hlt : decide (left pc' < left pc) = true) :
    (Ends t op es ∨ (Sleeps t s' ∧ op ≠ .acq .tryWait ∧ ∀ x, op ≠ .sig x)) ∨ (Works op t s' ∧ left (pcOf s' t) < left (pcOf s t)) := by
  refine .inr ⟨⟨pc', ht', hop, hna, fun h => (by rw [hh] at h; cases h), hk, hn⟩, ?_⟩
  simpa [pcOf, ht, ht'] using hlt

theorem decreases {M : Mon D S} {op : Op S} {t : Nat} {s s' : St D S} {a : Act S} {es : List (Ev S)} (h : Works op t s)
    (hs : step M s (t, a) = some (s', es)) :
    (Ends t op es ∨ (Sleeps t s' ∧ op ≠ .acq .tryWait ∧ ∀ x, op ≠ .sig x)) ∨ (Works op t s' ∧ left (pcOf s' t) < left (pcOf s t)) := by
  obtain ⟨pc, ht, hop, hna, ho, hk, hn⟩ := h
  cases pc
  all_goals try (rename_i b; cases b)
  all_goals cases a
  all_goals simp only [step, ht, reduceCtorEq] at hs
  all_goals repeat' (split at hs)
  all_goals first
    | contradiction
    | (simp only [reduceCtorEq] at hs; done)
    | (obtain ⟨rfl, rfl⟩ := Prod.mk.inj (Option.some.inj hs))
  all_goals simp only [opOf, Option.some.injEq] at hop
  all_goals try subst hop
  all_goals first
    | (left; left; exact ⟨_, List.mem_cons_self, .inl ⟨_, rfl⟩⟩)
    | (left; left; exact ⟨_, List.mem_cons_self, .inr rfl⟩)
    | (left; right; refine ⟨⟨_, get_set ht⟩, ?_, nofun⟩; simp_all [PC.noTry]; done)
    | (refine arrive ht (get_set ht) rfl rfl rfl ?_ trivial rfl; simp; done)
    | exact arrive ht (get_set2 ht) rfl rfl rfl nofun trivial rfl
    | exact arrive ht (get_set ht) rfl rfl rfl nofun hn rfl
    | (refine arrive ht (get_set ht) ?_ rfl rfl nofun trivial rfl; rw [hk _ (.inl rfl)]; rfl)
    | (refine arrive (pc' := .leave (.sig _) true) ht ?_ rfl rfl rfl nofun trivial rfl; simp only [List.getElem?_map, get_set ht]; rfl)

theorem works_left {op : Op S} {t : Nat} {s : St D S} (h : Works op t s) : 0 < left (pcOf s t) := by
  obtain ⟨pc, ht, hop, hna, _⟩ := h
  simp only [pcOf, ht, Option.getD_some]
  cases pc <;> simp [left, opOf, PC.isAsleep] at hop hna ⊢

theorem within {M : Mon D S} {op : Op S} {t : Nat} {s : St D S} (h : Works op t s) :
    Within (step M) Any t (fun s' es => Ends t op es ∨ (Sleeps t s' ∧ op ≠ .acq .tryWait ∧ ∀ x, op ≠ .sig x)) 4 s :=
  within_of_measure (Works op t) (fun s => left (pcOf s t) - 1) (fun _ h => let ⟨a, r, hr⟩ := progress h; ⟨a, r, trivial, hr⟩)
    (fun _ _ _ _ h _ hs => (decreases h hs).imp id fun ⟨h1, h2⟩ => ⟨h1, by have := works_left h1; omega⟩) 4 s h (by
      cases pcOf s t <;> simp [left])

theorem release {t : Nat} {s s' : St D S} {pc pc' : PC S} (ht : s.ths[t]? = some pc) (ht' : s'.ths[t]? = some pc') (hh : pc'.holding = true)
    (hlt : decide (left pc' < left pc) = true) :
    s'.owner = none ∨ ((∃ pc : PC S, s'.ths[t]? = some pc ∧ pc.holding = true) ∧ left (pcOf s' t) - 1 < left (pcOf s t) - 1) := by
  refine .inr ⟨⟨pc', ht', hh⟩, ?_⟩
  have h := of_decide_eq_true hlt
  have : 0 < left pc' := by cases pc' <;> simp [left, PC.holding] at hh ⊢
  simp only [pcOf, ht, ht', Option.getD_some]
  omega

/-- The owner of the mutex gives it back. -/
theorem owner_within {M : Mon D S} {t : Nat} {s : St D S} {pc : PC S} (ht : s.ths[t]? = some pc) (hh : pc.holding = true) :
    Within (step M) Any t (fun s' _ => s'.owner = none) 3 s := by
  refine within_of_measure (fun s => ∃ pc : PC S, s.ths[t]? = some pc ∧ pc.holding = true) (fun s => left (pcOf s t) - 1) ?_ ?_ 3 s ⟨pc, ht, hh⟩ ?_
  · rintro s ⟨pc, ht, hh⟩
    cases pc with
    | idle => simp [PC.holding] at hh
    | asleep k => simp [PC.holding] at hh
    | want k => simp [PC.holding] at hh
    | wantSig x => simp [PC.holding] at hh
    | woken k b => simp [PC.holding] at hh
    | inside k =>
      refine ⟨.go, ?_⟩
      simp only [step, ht]
      cases k <;> split <;> exact ⟨_, trivial, rfl⟩
    | notifying x all => exact (notify_go (M := M) ht).elim fun a h => h.elim fun r hr => ⟨a, r, trivial, hr⟩
    | _ =>
      refine ⟨.go, ?_⟩
      simp only [step, ht]
      (repeat' split) <;> exact ⟨_, trivial, rfl⟩
  · rintro s a s' es ⟨pc, ht, hh⟩ hf hs
    cases pc
    all_goals try (rename_i b; cases b)
    all_goals simp only [PC.holding, Bool.false_eq_true] at hh
    all_goals cases a
    all_goals simp only [step, ht, reduceCtorEq] at hs
    all_goals repeat' (split at hs)
    all_goals first
      | contradiction
      | (simp only [reduceCtorEq] at hs; done)
      | (obtain ⟨rfl, rfl⟩ := Prod.mk.inj (Option.some.inj hs))
    all_goals first
      | exact .inl rfl
      | exact release ht (get_set ht) rfl rfl
      | exact release ht (get_set2 ht) rfl rfl
      | (rename_i x; refine release (pc' := .leave (.sig x) true) ht ?_ rfl rfl; simp only [List.getElem?_map, get_set ht]; rfl)
  · simp only [pcOf, ht, Option.getD_some]
    cases pc <;> simp [left, PC.holding] at hh ⊢

end Hd

end Verif.Monitor

namespace Verif.CvAny

open Verif.Spec.Alone

namespace Hd

/-- Steps left until a wait returns, sleeps, or needs the user's lock. -/
def left : PC → Nat
  | .wLock _ => 6 | .wRelease _ => 5 | .wake _ _ => 5 | .wClock => 4 | .wBlock _ => 3 | .wExit _ => 2 | .wRelock _ => 1 | .wUnwind => 1
  | .nLock _ => 3 | .nSignal _ => 2 | .nUnlock => 1
  | .idle | .blocked _ | .dead => 0

def pcOf (s : St) (t : Nat) : PC := s.ths[t]?.getD .idle

/-- In a wait, but not asleep. -/
def inWait : PC → Bool
  | .wLock _ | .wRelease _ | .wake _ _ | .wClock | .wBlock _ | .wExit _ | .wRelock _ | .wUnwind => true
  | _ => false

def inNotify : PC → Bool
  | .nLock _ | .nSignal _ | .nUnlock => true
  | _ => false

/-- The locks it needs are free. -/
def canLock (s : St) : PC → Prop
  | .wLock _ | .wake _ _ | .nLock _ => s.int = none
  | .wRelock _ => s.user = none
  | _ => True

theorem get_set2 {β : Type} {l : List β} {t v : Nat} {x y z : β} (h : l[t]? = some x) : ((l.set v z).set t y)[t]? = some y :=
  List.getElem?_set_self (by rw [List.length_set]; exact (List.getElem?_eq_some_iff.mp h).1)

theorem get_set_map {β : Type} {l : List β} {t : Nat} {f : β → β} {x y : β} (h : l[t]? = some x) : ((l.map f).set t y)[t]? = some y :=
  List.getElem?_set_self (by rw [List.length_map]; exact (List.getElem?_eq_some_iff.mp h).1)

/-- A thread at work has a next step. -/
theorem progress {t : Nat} {s : St} {pc : PC} (ht : s.ths[t]? = some pc) (hw : inWait pc = true ∨ inNotify pc = true) (hc : canLock s pc) :
    ∃ a r, step s (t, a) = some r := by
  cases pc with
  | nSignal all =>
    cases all
    · by_cases h : s.ths.any PC.isBlocked = true
      · obtain ⟨y, hy, hb⟩ := List.any_eq_true.mp h
        obtain ⟨j, hj⟩ := List.mem_iff_getElem?.mp hy
        cases y <;> simp only [PC.isBlocked, Bool.false_eq_true] at hb
        exact ⟨.wakes j, _, by simp only [step, ht, hj]; rfl⟩
      · exact ⟨.go, _, by simp only [step, ht, h, if_false, Bool.false_eq_true]; rfl⟩
    · exact ⟨.go, _, by simp only [step, ht]; rfl⟩
  | idle => simp [inWait, inNotify] at hw
  | blocked k => simp [inWait, inNotify] at hw
  | dead => simp [inWait, inNotify] at hw
  | wLock k => exact ⟨.go, _, by simp only [step, ht, show s.int = none from hc, if_true]; rfl⟩
  | wake k r => exact ⟨.go, _, by simp only [step, ht, show s.int = none from hc, if_true]; rfl⟩
  | nLock all => exact ⟨.go, _, by simp only [step, ht, show s.int = none from hc, if_true]; rfl⟩
  | wRelock r => exact ⟨.go, _, by simp only [step, ht, show s.user = none from hc, if_true]; rfl⟩
  | _ => exact ⟨.go, _, by simp only [step, ht]; rfl⟩

theorem wait_arrive {t : Nat} {s s' : St} {pc pc' : PC} {es : List Ev} (ht : s.ths[t]? = some pc) (ht' : s'.ths[t]? = some pc')
    (hw : inWait pc' = true) (hc : canLock s' pc') (hlt : decide (left pc' < left pc) = true) :
    (WaitEnds t es ∨ Sleeps t s' ∨ NeedsUser t s') ∨
      ((∃ pc, s'.ths[t]? = some pc ∧ inWait pc = true ∧ canLock s' pc) ∧ left (pcOf s' t) - 1 < left (pcOf s t) - 1) := by
  have h := of_decide_eq_true hlt
  refine .inr ⟨⟨pc', ht', hw, hc⟩, ?_⟩
  have : 0 < left pc' := by cases pc' <;> simp [left, inWait] at hw ⊢
  simp only [pcOf, ht, ht', Option.getD_some]
  omega

theorem wait_within {t : Nat} {s : St} {pc : PC} (ht : s.ths[t]? = some pc) (hw : inWait pc = true) (hc : canLock s pc) :
    Within step Any t (fun s' es => WaitEnds t es ∨ Sleeps t s' ∨ NeedsUser t s') 6 s := by
  refine within_of_measure (fun s => ∃ pc, s.ths[t]? = some pc ∧ inWait pc = true ∧ canLock s pc) (fun s => left (pcOf s t) - 1) ?_ ?_ 6 s
    ⟨pc, ht, hw, hc⟩ ?_
  · rintro s ⟨pc, ht, hw, hc⟩
    obtain ⟨a, r, h⟩ := progress ht (.inl hw) hc
    exact ⟨a, r, trivial, h⟩
  · rintro s a s' es ⟨pc, ht, hw, hc⟩ hf hs
    cases pc
    all_goals simp only [inWait, Bool.false_eq_true] at hw
    all_goals cases a
    all_goals simp only [step, ht, reduceCtorEq] at hs
    all_goals repeat' (split at hs)
    all_goals first
      | contradiction
      | (simp only [reduceCtorEq] at hs; done)
      | (obtain ⟨rfl, rfl⟩ := Prod.mk.inj (Option.some.inj hs))
    all_goals first
      | exact .inl (.inl ⟨_, List.mem_cons_self, .inl ⟨_, rfl⟩⟩)
      | exact .inl (.inl ⟨_, List.mem_cons_of_mem _ List.mem_cons_self, .inl ⟨_, rfl⟩⟩)
      | exact .inl (.inl ⟨_, List.mem_cons_self, .inr rfl⟩)
      | exact .inl (.inr (.inl ⟨_, get_set ht⟩))
      | exact wait_arrive ht (get_set ht) rfl trivial rfl
      | (by_cases hu : s.user = none
         · exact wait_arrive ht (get_set ht) rfl hu rfl
         · exact .inl (.inr (.inr ⟨⟨_, get_set ht⟩, hu⟩)))
  · simp only [pcOf, ht, Option.getD_some]
    cases pc <;> simp [left]

theorem notify_arrive {t : Nat} {s s' : St} {pc pc' : PC} {es : List Ev} (ht : s.ths[t]? = some pc) (ht' : s'.ths[t]? = some pc')
    (hw : inNotify pc' = true) (hc : canLock s' pc') (hlt : decide (left pc' < left pc) = true) :
    NotifyEnds t es ∨
      ((∃ pc, s'.ths[t]? = some pc ∧ inNotify pc = true ∧ canLock s' pc) ∧ left (pcOf s' t) - 1 < left (pcOf s t) - 1) := by
  have h := of_decide_eq_true hlt
  refine .inr ⟨⟨pc', ht', hw, hc⟩, ?_⟩
  have : 0 < left pc' := by cases pc' <;> simp [left, inNotify] at hw ⊢
  simp only [pcOf, ht, ht', Option.getD_some]
  omega

theorem notify_within {t : Nat} {s : St} {pc : PC} (ht : s.ths[t]? = some pc) (hw : inNotify pc = true) (hc : canLock s pc) :
    Within step Any t (fun _ es => NotifyEnds t es) 3 s := by
  refine within_of_measure (fun s => ∃ pc, s.ths[t]? = some pc ∧ inNotify pc = true ∧ canLock s pc) (fun s => left (pcOf s t) - 1) ?_ ?_ 3 s
    ⟨pc, ht, hw, hc⟩ ?_
  · rintro s ⟨pc, ht, hw, hc⟩
    obtain ⟨a, r, h⟩ := progress ht (.inr hw) hc
    exact ⟨a, r, trivial, h⟩
  · rintro s a s' es ⟨pc, ht, hw, hc⟩ hf hs
    cases pc
    all_goals simp only [inNotify, Bool.false_eq_true] at hw
    all_goals try (rename_i b; cases b)
    all_goals cases a
    all_goals simp only [step, ht, reduceCtorEq] at hs
    all_goals repeat' (split at hs)
    all_goals first
      | contradiction
      | (simp only [reduceCtorEq] at hs; done)
      | (obtain ⟨rfl, rfl⟩ := Prod.mk.inj (Option.some.inj hs))
    all_goals first
      | exact .inl ⟨_, List.mem_cons_self, _, rfl⟩
      | exact notify_arrive ht (get_set ht) rfl trivial rfl
      | exact notify_arrive ht (get_set2 ht) rfl trivial rfl
      | exact notify_arrive ht (get_set_map ht) rfl trivial rfl
  · simp only [pcOf, ht, Option.getD_some]
    cases pc <;> simp [left, inNotify] at hw ⊢

/-- Further steps until the owner of the internal mutex gives it back. -/
def hold : PC → Nat
  | .wRelease _ => 3 | .wClock => 2 | .wBlock _ => 1 | .nSignal _ => 1
  | _ => 0

theorem release {t : Nat} {s s' : St} {pc pc' : PC} (ht : s.ths[t]? = some pc) (ht' : s'.ths[t]? = some pc') (hh : pc'.holdsInt = true)
    (hlt : decide (hold pc' < hold pc) = true) :
    s'.int = none ∨ ((∃ pc, s'.ths[t]? = some pc ∧ pc.holdsInt = true) ∧ hold (pcOf s' t) < hold (pcOf s t)) := by
  refine .inr ⟨⟨pc', ht', hh⟩, ?_⟩
  simpa [pcOf, ht, ht'] using hlt

/-- The owner of the internal mutex gives it back. -/
theorem owner_within {t : Nat} {s : St} {pc : PC} (ht : s.ths[t]? = some pc) (hh : pc.holdsInt = true) :
    Within step Any t (fun s' _ => s'.int = none) 4 s := by
  refine within_of_measure (fun s => ∃ pc, s.ths[t]? = some pc ∧ pc.holdsInt = true) (fun s => hold (pcOf s t)) ?_ ?_ 4 s ⟨pc, ht, hh⟩ ?_
  · rintro s ⟨pc, ht, hh⟩
    obtain ⟨a, r, h⟩ := progress ht (by cases pc <;> simp [inWait, inNotify, PC.holdsInt] at hh ⊢) (by cases pc <;> first | trivial | (simp [PC.holdsInt] at hh))
    exact ⟨a, r, trivial, h⟩
  · rintro s a s' es ⟨pc, ht, hh⟩ hf hs
    cases pc
    all_goals simp only [PC.holdsInt, Bool.false_eq_true] at hh
    all_goals try (rename_i b; cases b)
    all_goals cases a
    all_goals simp only [step, ht, reduceCtorEq] at hs
    all_goals repeat' (split at hs)
    all_goals first
      | contradiction
      | (simp only [reduceCtorEq] at hs; done)
      | (obtain ⟨rfl, rfl⟩ := Prod.mk.inj (Option.some.inj hs))
    all_goals first
      | exact .inl rfl
      | exact release ht (get_set ht) rfl rfl
      | exact release ht (get_set2 ht) rfl rfl
      | exact release ht (get_set_map ht) rfl rfl
  · simp only [pcOf, ht, Option.getD_some]
    cases pc <;> simp [hold]

end Hd

end Verif.CvAny

namespace Verif.CondVarPosix

open Verif.Spec.Alone

variable {D : Type}

namespace Hd

/-- Steps left until a wait returns or sleeps. -/
def left : PC D → Nat
  | .idle | .asleep _ _ => 0
  | .wake _ _ _ => 4 | .test _ _ => 3 | .clock _ => 2 | .block _ _ => 1 | .last _ => 1

def pcOf (s : St D) (t : Nat) : PC D := s.ths[t]?.getD .idle

/-- In a wait, but not asleep, and able to lock the mutex. -/
def Works (t : Nat) (s : St D) : Prop :=
  ∃ pc, s.ths[t]? = some pc ∧ pc.isAsleep = false ∧ (pc = .idle → False) ∧ (∀ k p r, pc = .wake k p r → s.owner = none)

theorem arrive {t : Nat} {s s' : St D} {pc pc' : PC D} {es : List (Ev D)} (ht : s.ths[t]? = some pc) (ht' : s'.ths[t]? = some pc')
    (hna : pc'.isAsleep = false) (hni : pc' = .idle → False) (hnw : ∀ k p r, pc' = .wake k p r → s'.owner = none)
    (hlt : decide (left pc' < left pc) = true) :
    (WaitEnds t es ∨ Sleeps t s') ∨ (Works t s' ∧ left (pcOf s' t) - 1 < left (pcOf s t) - 1) := by
  have h := of_decide_eq_true hlt
  refine .inr ⟨⟨pc', ht', hna, hni, hnw⟩, ?_⟩
  have : 0 < left pc' := by
    cases pc' <;> simp only [left, PC.isAsleep, Bool.true_eq_false] at hna ⊢ <;> first | omega | exact absurd rfl hni
  simp only [pcOf, ht, ht', Option.getD_some]
  omega

theorem within {bug : Bool} {t : Nat} {s : St D} (h : Works t s) :
    Within (step bug) Any t (fun s' es => WaitEnds t es ∨ Sleeps t s') 4 s := by
  refine within_of_measure (Works t) (fun s => left (pcOf s t) - 1) ?_ ?_ 4 s h ?_
  · rintro s ⟨pc, ht, hna, hni, hw⟩
    refine ⟨.go, ?_⟩
    cases pc with
    | idle => exact (hni rfl).elim
    | asleep k p => simp [PC.isAsleep] at hna
    | wake k p r =>
      simp only [step, ht, hw k p r rfl, if_true]
      (repeat' split) <;> exact ⟨_, trivial, rfl⟩
    | clock p => cases p <;> exact ⟨_, trivial, by simp only [step, ht]; rfl⟩
    | _ =>
      simp only [step, ht]
      (repeat' split) <;> exact ⟨_, trivial, rfl⟩
  · rintro s a s' es ⟨pc, ht, hna, hni, hw⟩ hf hs
    cases pc
    case idle => exact (hni rfl).elim
    case asleep => simp [PC.isAsleep] at hna
    all_goals cases a
    all_goals simp only [step, ht, reduceCtorEq, begin] at hs
    all_goals repeat' (split at hs)
    all_goals first
      | contradiction
      | (simp only [reduceCtorEq] at hs; done)
      | (obtain ⟨rfl, rfl⟩ := Prod.mk.inj (Option.some.inj hs))
    all_goals try split
    all_goals first
      | exact .inl (.inl ⟨_, List.mem_cons_self, .inl ⟨_, rfl⟩⟩)
      | exact .inl (.inl ⟨_, List.mem_cons_of_mem _ List.mem_cons_self, .inl ⟨_, rfl⟩⟩)
      | exact .inl (.inl ⟨_, List.mem_cons_of_mem _ (List.mem_cons_of_mem _ List.mem_cons_self), .inl ⟨_, rfl⟩⟩)
      | exact .inl (.inl ⟨_, List.mem_cons_self, .inr rfl⟩)
      | exact .inl (.inr ⟨_, _, get_set ht⟩)
      | exact arrive ht (get_set ht) rfl nofun nofun rfl
  · cases pcOf s t <;> simp [left]

end Hd

end Verif.CondVarPosix
