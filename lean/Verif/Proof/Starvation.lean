import Verif.Proof.Endless
import Verif.Proof.Alone
import Verif.Spec.Starvation
import Verif.Proof.SpinMutex
import Verif.Proof.SharedSpinMutex
import Verif.Proof.Rest

/-!
# Lemmas for C114
-/

open Verif.Spec.Alone (get_set)

namespace Verif.Spin

theorem other {v : Variant} {s s' : St} {u t : Nat} {a : Act} {es : List Ev} (h : step v s (u, a) = some (s', es)) (hu : u ≠ t) :
    s'.ths[t]? = s.ths[t]? := by
  simp only [step] at h
  split at h
  · cases h
  split at h
  all_goals first
    | (cases h; done)
    | (obtain ⟨rfl, rfl⟩ := Prod.mk.inj (Option.some.inj h); exact get_set_ne hu)
    | (split at h <;> (obtain ⟨rfl, rfl⟩ := Prod.mk.inj (Option.some.inj h); exact get_set_ne hu))

theorem stays_free {v : Variant} {s s' : St} {u : Nat} {a : Act} {es : List Ev} (h : step v s (u, a) = some (s', es)) (hw : s.word.val = true)
    (h1 : .locked u ∉ es) (h2 : .tried u true ∉ es) : s'.word.val = true := by
  simp only [step] at h
  split at h
  · cases h
  split at h
  all_goals first
    | (cases h; done)
    | (obtain ⟨rfl, rfl⟩ := Prod.mk.inj (Option.some.inj h); first | exact hw | rfl)
    | (rw [if_pos hw] at h; obtain ⟨rfl, rfl⟩ := Prod.mk.inj (Option.some.inj h); first | exact absurd (List.mem_singleton.2 rfl) h1 | exact absurd (List.mem_singleton.2 rfl) h2)

theorem free_word {tr : List Ev} {s : St} (I : Inv tr s) (h : Free s) : s.word.val = true := by
  have hc : s.ths.countP Th.owns = 0 := List.countP_eq_zero.2 fun th hth => by rw [h th hth]; decide
  have := I.excl
  rw [hc] at this
  cases hw : s.word.val
  · rw [hw] at this; cases this
  · rfl

theorem stays_in {v : Variant} {s s' : St} {u t : Nat} {a : Act} {es : List Ev} (h : step v s (u, a) = some (s', es)) (hi : InLock t s)
    (h1 : .locked t ∉ es) : InLock t s' := by
  by_cases hu : u = t
  · subst hu
    obtain ⟨th, ht, hp⟩ := hi
    simp only [step, ht] at h
    rcases hp with hp | hp <;> rw [hp] at h <;> cases a <;> try (cases h; done)
    · obtain ⟨rfl, rfl⟩ := Prod.mk.inj (Option.some.inj h)
      refine ⟨_, get_set ht, ?_⟩
      dsimp only; split
      · exact .inr rfl
      · exact .inl rfl
    · dsimp only at h
      split at h
      · obtain ⟨rfl, rfl⟩ := Prod.mk.inj (Option.some.inj h); exact absurd (List.mem_singleton.2 rfl) h1
      · obtain ⟨rfl, rfl⟩ := Prod.mk.inj (Option.some.inj h)
        refine ⟨_, get_set ht, ?_⟩
        dsimp only; split
        · exact .inl rfl
        · exact .inr rfl
  · obtain ⟨th, ht, hp⟩ := hi
    exact ⟨th, (other h hu).trans ht, hp⟩

/-- How far `lock()` is from the mutex, if that is free. -/
def rank (t : Nat) (s : St) : Nat :=
  match s.ths[t]? with
  | some th => if th.pc = .lockSpin then 2 else 1
  | none => 0

theorem rank_self {v : Variant} {s s' : St} {t : Nat} {a : Act} {es : List Ev} (h : step v s (t, a) = some (s', es)) (hi : InLock t s)
    (hw : s.word.val = true) (hf : Fair s a) (h1 : .locked t ∉ es) : rank t s' < rank t s := by
  obtain ⟨th, ht, hp⟩ := hi
  simp only [step, ht] at h
  rcases hp with hp | hp <;> rw [hp] at h <;> cases a <;> try (cases h; done)
  · obtain ⟨rfl, rfl⟩ := Prod.mk.inj (Option.some.inj h)
    have hl := hf.trans hw
    simp only [rank, ht, hp, get_set ht, hl, if_true]
    rw [if_neg (by simp)]; exact Nat.lt_succ_self 1
  · dsimp only at h
    rw [if_pos hw] at h
    obtain ⟨rfl, rfl⟩ := Prod.mk.inj (Option.some.inj h); exact absurd (List.mem_singleton.2 rfl) h1

theorem ready {v : Variant} {s : St} {t : Nat} (hi : InLock t s) : Verif.Spec.Endless.Ready (step v) Next s t := by
  obtain ⟨th, ht, hp⟩ := hi
  refine ⟨.go s.word.val, ?_⟩
  rcases hp with hp | hp
  · exact ⟨_, rfl, by simp only [step, ht, hp]; rfl⟩
  · cases hw : s.word.val
    · exact ⟨_, hw.symm, by simp only [step, ht, hp, hw]; rfl⟩
    · exact ⟨_, hw.symm, by simp only [step, ht, hp, hw]; rfl⟩

end Verif.Spin

namespace Verif.SharedSpin

theorem other {s s' : St} {u t : Nat} {a : Act} {es : List Ev} (h : step s (u, a) = some (s', es)) (hu : u ≠ t) :
    s'.ths[t]? = s.ths[t]? := by
  simp only [step] at h
  split at h
  · cases h
  split at h
  all_goals first
    | (cases h; done)
    | (obtain ⟨rfl, rfl⟩ := Prod.mk.inj (Option.some.inj h); exact get_set_ne hu)
    | (split at h <;> (obtain ⟨rfl, rfl⟩ := Prod.mk.inj (Option.some.inj h); exact get_set_ne hu))

/-- Who owns nothing changes the word only by acquiring the mutex. -/
theorem stays_free {s s' : St} {u : Nat} {a : Act} {es : List Ev} (h : step s (u, a) = some (s', es)) (hf : Free s)
    (h1 : .locked u ∉ es) (h2 : .tried u true ∉ es) (h3 : .lockedShared u ∉ es) (h4 : .triedShared u true ∉ es) :
    s'.word.val = s.word.val ∧ Free s' := by
  have key : ∀ (th th' : Th), s.ths[u]? = some th → (th'.pc ≠ .owner ∧ th'.pc ≠ .unlocking ∧ th'.pc ≠ .sharer ∧ th'.pc ≠ .sharedUnlocking) →
      ∀ x ∈ s.ths.set u th', x.pc ≠ .owner ∧ x.pc ≠ .unlocking ∧ x.pc ≠ .sharer ∧ x.pc ≠ .sharedUnlocking := by
    intro th th' _ hp x hx
    rcases List.mem_or_eq_of_mem_set hx with hx | rfl
    · exact hf x hx
    · exact hp
  simp only [step] at h
  split at h
  · cases h
  next th ht =>
  have hth := hf th (List.mem_of_getElem? ht)
  split at h
  all_goals first
    | (cases h; done)
    | (next hp => exact absurd hp hth.1)
    | (next hp => exact absurd hp hth.2.1)
    | (next hp => exact absurd hp hth.2.2.1)
    | (next hp => exact absurd hp hth.2.2.2)
    | (obtain ⟨rfl, rfl⟩ := Prod.mk.inj (Option.some.inj h); refine ⟨rfl, key th _ ht ?_⟩; simp_all; done)
    | (obtain ⟨rfl, rfl⟩ := Prod.mk.inj (Option.some.inj h); refine ⟨rfl, key th _ ht ?_⟩; dsimp only; split <;> simp)
    | (split at h
       · obtain ⟨rfl, rfl⟩ := Prod.mk.inj (Option.some.inj h)
         first
           | exact absurd (List.mem_singleton.2 rfl) h1
           | exact absurd (List.mem_singleton.2 rfl) h2
           | exact absurd (List.mem_singleton.2 rfl) h3
           | exact absurd (List.mem_singleton.2 rfl) h4
       · obtain ⟨rfl, rfl⟩ := Prod.mk.inj (Option.some.inj h); exact ⟨rfl, key th _ ht (by simp)⟩)

theorem free_word {tr : List Ev} {s : St} (I : Inv tr s) (h : Free s) : s.word.val = 0 := by
  have he : s.ths.countP Th.isEx = 0 := List.countP_eq_zero.2 fun th hth => by
    have := h th hth
    simp only [Th.isEx]; cases hp : th.pc <;> simp_all [PC.own]
  have hs : s.ths.countP Th.isSh = 0 := List.countP_eq_zero.2 fun th hth => by
    have := h th hth
    simp only [Th.isSh]; cases hp : th.pc <;> simp_all [PC.own]
  have := I.word
  rcases this with ⟨_, h2, _⟩ | ⟨h1, _⟩
  · exact UInt32.toNat_inj.1 (h2.trans hs)
  · rw [he] at h1; cases h1

theorem stays_in {s s' : St} {u t : Nat} {a : Act} {es : List Ev} (h : step s (u, a) = some (s', es)) (hi : InLock t s)
    (h1 : .locked t ∉ es) : InLock t s' := by
  by_cases hu : u = t
  · subst hu
    obtain ⟨th, ht, hp⟩ := hi
    simp only [step, ht] at h
    rcases hp with hp | hp <;> rw [hp] at h <;> cases a <;> try (cases h; done)
    · obtain ⟨rfl, rfl⟩ := Prod.mk.inj (Option.some.inj h)
      refine ⟨_, get_set ht, ?_⟩
      dsimp only; split
      · exact .inr rfl
      · exact .inl rfl
    · dsimp only at h
      split at h
      · obtain ⟨rfl, rfl⟩ := Prod.mk.inj (Option.some.inj h); exact absurd (List.mem_singleton.2 rfl) h1
      · obtain ⟨rfl, rfl⟩ := Prod.mk.inj (Option.some.inj h); exact ⟨_, get_set ht, .inl rfl⟩
    · obtain ⟨rfl, rfl⟩ := Prod.mk.inj (Option.some.inj h); exact ⟨_, get_set ht, .inl rfl⟩
  · obtain ⟨th, ht, hp⟩ := hi
    exact ⟨th, (other h hu).trans ht, hp⟩

theorem stays_in_shared {s s' : St} {u t : Nat} {a : Act} {es : List Ev} (h : step s (u, a) = some (s', es)) (hi : InShared t s)
    (h1 : .lockedShared t ∉ es) : InShared t s' := by
  by_cases hu : u = t
  · subst hu
    obtain ⟨th, ht, hp⟩ := hi
    simp only [step, ht] at h
    rcases hp with hp | hp | ⟨c, hp⟩ <;> rw [hp] at h <;> cases a <;> try (cases h; done)
    · obtain ⟨rfl, rfl⟩ := Prod.mk.inj (Option.some.inj h)
      refine ⟨_, get_set ht, ?_⟩
      dsimp only; split
      · exact .inl rfl
      · exact .inr (.inl rfl)
    · obtain ⟨rfl, rfl⟩ := Prod.mk.inj (Option.some.inj h); exact ⟨_, get_set ht, .inr (.inr ⟨_, rfl⟩)⟩
    · dsimp only at h
      split at h
      · obtain ⟨rfl, rfl⟩ := Prod.mk.inj (Option.some.inj h); exact absurd (List.mem_singleton.2 rfl) h1
      · obtain ⟨rfl, rfl⟩ := Prod.mk.inj (Option.some.inj h); exact ⟨_, get_set ht, .inl rfl⟩
    · obtain ⟨rfl, rfl⟩ := Prod.mk.inj (Option.some.inj h); exact ⟨_, get_set ht, .inl rfl⟩
  · obtain ⟨th, ht, hp⟩ := hi
    exact ⟨th, (other h hu).trans ht, hp⟩

/-- How far the functions are from the mutex, if that is free. -/
def pcRank : PC → Nat
  | .lockCas => 1
  | .lockSpin => 2
  | .sharedLoad => 2
  | .sharedSpin => 3
  | .sharedCas c => if c = 0 then 1 else 4
  | _ => 0

/-- The same for a thread. -/
def rank (t : Nat) (s : St) : Nat :=
  match s.ths[t]? with
  | some th => pcRank th.pc
  | none => 0

theorem rank_self {s s' : St} {t : Nat} {a : Act} {es : List Ev} (h : step s (t, a) = some (s', es)) (hi : InLock t s)
    (hw : s.word.val = 0) (hf : Fair s a) (h1 : .locked t ∉ es) : rank t s' < rank t s := by
  obtain ⟨th, ht, hp⟩ := hi
  simp only [step, ht] at h
  rcases hp with hp | hp <;> rw [hp] at h <;> cases a <;> try (cases h; done)
  · obtain ⟨rfl, rfl⟩ := Prod.mk.inj (Option.some.inj h)
    have hl := Eq.trans hf hw
    subst hl
    simp only [rank, ht, hp, get_set ht]
    decide
  · dsimp only at h
    rw [if_pos (show s.word.val = unlockedState from hw)] at h
    obtain ⟨rfl, rfl⟩ := Prod.mk.inj (Option.some.inj h); exact absurd (List.mem_singleton.2 rfl) h1
  · exact hf.elim

theorem rank_shared {s s' : St} {t : Nat} {a : Act} {es : List Ev} (h : step s (t, a) = some (s', es)) (hi : InShared t s)
    (hw : s.word.val = 0) (hf : Fair s a) (h1 : .lockedShared t ∉ es) : rank t s' < rank t s := by
  obtain ⟨th, ht, hp⟩ := hi
  simp only [step, ht] at h
  rcases hp with hp | hp | ⟨c, hp⟩ <;> rw [hp] at h <;> cases a <;> try (cases h; done)
  · obtain ⟨rfl, rfl⟩ := Prod.mk.inj (Option.some.inj h)
    have hl := Eq.trans hf hw
    subst hl
    simp only [rank, ht, hp, get_set ht]
    decide
  · obtain ⟨rfl, rfl⟩ := Prod.mk.inj (Option.some.inj h)
    have hl := Eq.trans hf hw
    subst hl
    simp only [rank, ht, hp, get_set ht]
    decide
  · dsimp only at h
    split at h
    · obtain ⟨rfl, rfl⟩ := Prod.mk.inj (Option.some.inj h); exact absurd (List.mem_singleton.2 rfl) h1
    · next hc =>
      obtain ⟨rfl, rfl⟩ := Prod.mk.inj (Option.some.inj h)
      simp only [rank, ht, hp, get_set ht, pcRank]
      rw [if_neg (fun h0 => hc (hw.trans h0.symm))]; exact Nat.lt_succ_self 3
  · exact hf.elim

theorem ready {s : St} {t : Nat} (hi : InLock t s ∨ InShared t s) : Verif.Spec.Endless.Ready step Next s t := by
  rcases hi with ⟨th, ht, hp⟩ | ⟨th, ht, hp⟩
  · rcases hp with hp | hp
    · exact ⟨.load s.word.val, _, rfl, by simp only [step, ht, hp]; rfl⟩
    · by_cases hw : s.word.val = unlockedState
      · exact ⟨.go, _, trivial, by simp only [step, ht, hp, if_pos hw]; rfl⟩
      · exact ⟨.go, _, trivial, by simp only [step, ht, hp, if_neg hw]; rfl⟩
  · rcases hp with hp | hp | ⟨c, hp⟩
    · exact ⟨.load s.word.val, _, rfl, by simp only [step, ht, hp]; rfl⟩
    · exact ⟨.load s.word.val, _, rfl, by simp only [step, ht, hp]; rfl⟩
    · by_cases hw : s.word.val = c
      · exact ⟨.go, _, trivial, by simp only [step, ht, hp, if_pos hw]; rfl⟩
      · exact ⟨.go, _, trivial, by simp only [step, ht, hp, if_neg hw]; rfl⟩

end Verif.SharedSpin

namespace Verif.ManualFutex

theorem stays_set {s s' : St} {u : Nat} {a : Act} {es : List Ev} (h : step s (u, a) = some (s', es)) (hw : isSet s.word.val = true)
    (hno : .resetDone u ∉ es) : isSet s'.word.val = true := by
  simp only [step] at h
  split at h
  · cases h
  split at h
  all_goals try (cases h; done)
  all_goals repeat' (split at h)
  all_goals try (cases h; done)
  all_goals obtain ⟨rfl, rfl⟩ := Prod.mk.inj (Option.some.inj h)
  all_goals first
    | exact hw
    | (simp only [rmw_val, isSet_add, isSet_sub]; exact hw)
    | (simp only [rmw_val]; rw [isSet_iff, or_toNat]; omega)
    | exact absurd (List.mem_singleton.2 rfl) hno

theorem set_now {s s' : St} {u v : Nat} {a : Act} {es : List Ev} (h : step s (u, a) = some (s', es)) (he : .wasSet v ∈ es) :
    isSet s'.word.val = true := by
  simp only [step] at h
  split at h
  · cases h
  split at h
  all_goals try (cases h; done)
  all_goals repeat' (split at h)
  all_goals try (cases h; done)
  all_goals obtain ⟨rfl, rfl⟩ := Prod.mk.inj (Option.some.inj h)
  all_goals first
    | (simp only [rmw_val]; rw [isSet_iff, or_toNat]; omega)
    | (exfalso; revert he; simp; done)
    | (exfalso; revert he; rename_i k _ _ _; cases k <;> simp [retEv]; done)
    | (exfalso; revert he; rename_i k _ _; cases k <;> simp [retEv]; done)
    | (exfalso; revert he; rename_i k _; cases k <;> simp [retEv]; done)

theorem other {s s' : St} {u t : Nat} {a : Act} {es : List Ev} {th : Th} (h : step s (u, a) = some (s', es)) (hu : u ≠ t)
    (ht : s.ths[t]? = some th) : s'.ths[t]? = some th ∨ s'.ths[t]? = some th.wakeUp := by
  simp only [step] at h
  split at h
  · cases h
  split at h
  all_goals try (cases h; done)
  all_goals repeat' (split at h)
  all_goals try (cases h; done)
  all_goals obtain ⟨rfl, rfl⟩ := Prod.mk.inj (Option.some.inj h)
  all_goals first
    | (left; rw [get_set_ne hu]; exact ht)
    | (right; rw [List.getElem?_map, get_set_ne hu, ht]; rfl)

theorem inWait_wakeUp {th : Th} (h : inWait th.pc = true) : inWait th.wakeUp.pc = true := by
  obtain ⟨pc, v⟩ := th
  cases pc <;> first | exact h | (rename_i k b; cases k <;> first | rfl | cases h)

/-- How far `wait()` is from its return if the event is set. -/
def pcRank : PC → Nat
  | .sub _ | .tryLoad _ => 1
  | .add _ | .reload _ _ => 2
  | .sleepCall _ _ _ | .asleep _ _ => 3
  | _ => 0

/-- The same for a thread. -/
def rank (t : Nat) (s : St) : Nat :=
  match s.ths[t]? with
  | some th => pcRank th.pc
  | none => 0

theorem stays_in {s s' : St} {u t : Nat} {a : Act} {es : List Ev} (h : step s (u, a) = some (s', es)) (hi : InWait t s)
    (h1 : .waitDone t ∉ es) : InWait t s' := by
  obtain ⟨⟨pc, v⟩, ht, hp⟩ := hi
  by_cases hu : u = t
  · subst hu
    simp only [step, ht] at h
    cases pc with
    | tryLoad k =>
      cases k <;> try (cases hp; done)
      cases a <;> try (cases h; done)
      dsimp only at h
      split at h
      · obtain ⟨rfl, rfl⟩ := Prod.mk.inj (Option.some.inj h); exact absurd (List.mem_singleton.2 rfl) h1
      · obtain ⟨rfl, rfl⟩ := Prod.mk.inj (Option.some.inj h); exact ⟨_, get_set ht, rfl⟩
    | add k =>
      cases k <;> try (cases hp; done)
      cases a <;> try (cases h; done)
      obtain ⟨rfl, rfl⟩ := Prod.mk.inj (Option.some.inj h)
      refine ⟨_, get_set ht, ?_⟩
      dsimp only; split <;> rfl
    | sleepCall k e b =>
      cases k <;> try (cases hp; done)
      cases a <;> try (cases h; done)
      all_goals dsimp only at h
      · split at h <;> (obtain ⟨rfl, rfl⟩ := Prod.mk.inj (Option.some.inj h); exact ⟨_, get_set ht, rfl⟩)
      · obtain ⟨rfl, rfl⟩ := Prod.mk.inj (Option.some.inj h); exact ⟨_, get_set ht, rfl⟩
    | asleep k b =>
      cases k <;> try (cases hp; done)
      cases a <;> try (cases h; done)
      obtain ⟨rfl, rfl⟩ := Prod.mk.inj (Option.some.inj h); exact ⟨_, get_set ht, rfl⟩
    | reload k b =>
      cases k <;> try (cases hp; done)
      cases a <;> try (cases h; done)
      dsimp only at h
      repeat' (split at h)
      all_goals try (cases h; done)
      all_goals (obtain ⟨rfl, rfl⟩ := Prod.mk.inj (Option.some.inj h); exact ⟨_, get_set ht, rfl⟩)
    | sub k =>
      cases k <;> try (cases hp; done)
      cases a <;> try (cases h; done)
      obtain ⟨rfl, rfl⟩ := Prod.mk.inj (Option.some.inj h); exact absurd (List.mem_singleton.2 rfl) h1
    | _ => cases hp
  · rcases other h hu ht with h | h
    · exact ⟨_, h, hp⟩
    · exact ⟨_, h, inWait_wakeUp (th := ⟨pc, v⟩) hp⟩

theorem rank_self {s s' : St} {t : Nat} {a : Act} {es : List Ev} (h : step s (t, a) = some (s', es)) (hi : InWait t s)
    (hw : isSet s.word.val = true) (hok : ∀ th, s.ths[t]? = some th → ∀ k e b, th.pc = .sleepCall k e b → isSet e = false) (hl : Newest s a)
    (h1 : .waitDone t ∉ es) : rank t s' < rank t s := by
  obtain ⟨⟨pc, v⟩, ht, hp⟩ := hi
  have hok := hok _ ht
  simp only [step, ht] at h
  cases pc with
  | tryLoad k =>
    cases k <;> try (cases hp; done)
    cases a <;> try (cases h; done)
    dsimp only at h
    rw [if_pos hw] at h
    obtain ⟨rfl, rfl⟩ := Prod.mk.inj (Option.some.inj h); exact absurd (List.mem_singleton.2 rfl) h1
  | add k =>
    cases k <;> try (cases hp; done)
    cases a <;> try (cases h; done)
    dsimp only at h
    rw [isSet_add, if_pos hw] at h
    obtain ⟨rfl, rfl⟩ := Prod.mk.inj (Option.some.inj h)
    simp only [rank, ht, get_set ht, pcRank]; decide
  | sleepCall k e b =>
    cases k <;> try (cases hp; done)
    cases a <;> try (cases h; done)
    all_goals dsimp only at h
    · rw [if_neg (fun he => by rw [he, hok _ _ _ rfl] at hw; cases hw)] at h
      obtain ⟨rfl, rfl⟩ := Prod.mk.inj (Option.some.inj h)
      simp only [rank, ht, get_set ht, pcRank]; decide
    · obtain ⟨rfl, rfl⟩ := Prod.mk.inj (Option.some.inj h)
      simp only [rank, ht, get_set ht, pcRank]; decide
  | asleep k b =>
    cases k <;> try (cases hp; done)
    cases a <;> try (cases h; done)
    obtain ⟨rfl, rfl⟩ := Prod.mk.inj (Option.some.inj h)
    simp only [rank, ht, get_set ht, pcRank]; decide
  | reload k b =>
    cases k <;> try (cases hp; done)
    cases a <;> try (cases h; done)
    dsimp only at h
    rw [if_pos (show isSet _ = true by rw [show _ = s.word.val from hl]; exact hw)] at h
    split at h
    · obtain ⟨rfl, rfl⟩ := Prod.mk.inj (Option.some.inj h)
      simp only [rank, ht, get_set ht, pcRank]; decide
    · cases h
  | sub k =>
    cases k <;> try (cases hp; done)
    cases a <;> try (cases h; done)
    obtain ⟨rfl, rfl⟩ := Prod.mk.inj (Option.some.inj h); exact absurd (List.mem_singleton.2 rfl) h1
  | _ => cases hp

/-- The threads that bring `wait()` nearer to its return: the thread itself, or if it is asleep a thread that is about to wake everybody. -/
def Helps (t : Nat) (s : St) (u : Nat) : Prop :=
  ∃ th, s.ths[t]? = some th ∧ (th.isAsleep = false ∧ u = t ∨ th.isAsleep = true ∧ ∃ x, s.ths[u]? = some x ∧ x.pc = .setWake)

theorem helper {tr : List Ev} {s : St} {t : Nat} (I : Inv tr s) (hi : InWait t s) (hw : isSet s.word.val = true) : ∃ u, Helps t s u := by
  obtain ⟨th, ht, hp⟩ := hi
  cases ha : th.isAsleep
  · exact ⟨t, th, ht, .inl ⟨ha, rfl⟩⟩
  · have := I.wake hw (List.countP_pos_iff.2 ⟨th, List.mem_of_getElem? ht, ha⟩)
    obtain ⟨x, hx, hwk⟩ := List.countP_pos_iff.1 this
    obtain ⟨u, hu⟩ := List.getElem?_of_mem hx
    refine ⟨u, th, ht, .inr ⟨ha, x, hu, ?_⟩⟩
    obtain ⟨pc, v⟩ := x
    cases pc <;> first | rfl | cases hwk

theorem helper_ready {s : St} {t u : Nat} (hF : Fresh s) (hi : InWait t s) (hh : Helps t s u) : Verif.Spec.Endless.Ready step Next s u := by
  obtain ⟨th, ht, ⟨ha, rfl⟩ | ⟨ha, x, hx, hxp⟩⟩ := hh
  · obtain ⟨th', ht', hp⟩ := hi
    cases ht.symm.trans ht'
    obtain ⟨pc, v⟩ := th
    have hf := hF _ _ ht
    cases pc with
    | reload k b =>
      refine ⟨.load s.word.val, ?_⟩
      simp only [step, ht]
      split
      · next h => rw [if_pos (hf.2 h)]; exact ⟨_, rfl, rfl⟩
      · exact ⟨_, rfl, rfl⟩
    | asleep k b => cases ha
    | tryLoad k | add k | sleepCall k e b | sub k =>
      refine ⟨.go, ?_⟩
      simp only [step, ht]
      repeat' split
      all_goals exact ⟨_, trivial, rfl⟩
    | _ => cases hp
  · exact ⟨.go, _, trivial, by simp only [step, hx, hxp]; rfl⟩

theorem helper_step {s s' : St} {t u : Nat} {a : Act} {es : List Ev} (h : step s (u, a) = some (s', es)) (hi : InWait t s) (hh : Helps t s u)
    (hw : isSet s.word.val = true) (hok : ∀ th, s.ths[t]? = some th → ∀ k e b, th.pc = .sleepCall k e b → isSet e = false) (hl : Newest s a)
    (h1 : .waitDone t ∉ es) : rank t s' < rank t s := by
  obtain ⟨th, ht, ⟨ha, rfl⟩ | ⟨ha, x, hx, hxp⟩⟩ := hh
  · exact rank_self h hi hw hok hl h1
  · obtain ⟨pc, v⟩ := th
    have hut : u ≠ t := by rintro rfl; cases hx.symm.trans ht; simp only at hxp; rw [hxp] at ha; cases ha
    simp only [step, hx, hxp] at h
    cases a <;> try (cases h; done)
    obtain ⟨rfl, rfl⟩ := Prod.mk.inj (Option.some.inj h)
    cases pc <;> try (cases ha; done)
    simp only [rank, ht, List.getElem?_map, get_set_ne hut, Option.map_some, Th.wakeUp, pcRank]; decide

theorem helper_keep {s s' : St} {t u w : Nat} {a : Act} {es : List Ev} (h : step s (w, a) = some (s', es)) (hi : InWait t s) (hh : Helps t s u)
    (hw : isSet s.word.val = true) (hok : ∀ th, s.ths[t]? = some th → ∀ k e b, th.pc = .sleepCall k e b → isSet e = false) (hl : Newest s a)
    (h1 : .waitDone t ∉ es) (hne : w ≠ u) : rank t s' < rank t s ∨ rank t s' = rank t s ∧ Helps t s' u := by
  obtain ⟨th, ht, ⟨ha, rfl⟩ | ⟨ha, x, hx, hxp⟩⟩ := hh
  · right
    have e : s'.ths[u]? = some th := by
      rcases other h hne ht with e | e
      · exact e
      · obtain ⟨pc, v⟩ := th
        cases pc <;> first | exact e | cases ha
    exact ⟨by simp only [rank, e, ht], th, e, .inl ⟨ha, rfl⟩⟩
  · by_cases hwt : w = t
    · subst hwt; exact .inl (rank_self h hi hw hok hl h1)
    · have ex : s'.ths[u]? = some x := by
        rcases other h hne hx with e | e
        · exact e
        · obtain ⟨pc, v⟩ := x; cases hxp; exact e
      rcases other h hwt ht with e | e
      · exact .inr ⟨by simp only [rank, e, ht], th, e, .inr ⟨ha, x, ex, hxp⟩⟩
      · left
        obtain ⟨pc, v⟩ := th
        cases pc <;> try (cases ha; done)
        simp only [rank, ht, e, Th.wakeUp, pcRank]; decide

end Verif.ManualFutex
