import Verif.Proof.Effort
import Verif.Spec.Charges
import Verif.Proof.SpinMutex
import Verif.Proof.SharedSpinMutex

/-!
# The potentials of the spin mutexes
-/

namespace Verif.Spin.Eff

open Verif.Spec.Effort

/-- How many steps a thread will make if nobody owns the mutex. -/
def weight (th : Th) : Nat :=
  match th.pc with
  | .idle | .owner => 0
  | .lockSpin => 2
  | .lockXchg | .tryXchg | .unlocking => 1

/-- The potential. -/
def pot (s : St) : Nat := total weight s.ths

theorem move {s : St} {t : Nat} {a b : Th} {f D : Nat} {w : Loc Bool} (h : s.ths[t]? = some a) (hw : weight b < weight a + D) :
    pot ⟨w, s.ths.set t b, f⟩ < pot s + D := by
  have := total_set (w := weight) (b := b) h
  simp only [pot]
  omega

theorem free_of_not_taken {tr : List Ev} {s : St} (I : Inv tr s) (h : taken s = false) : s.word.val = true := by
  have h0 : s.ths.countP Th.owns = 0 := by
    rw [List.countP_eq_zero]
    intro a ha hown
    have := List.any_eq_false.mp h a ha
    exact this hown
  have := I.excl
  cases hv : s.word.val with
  | true => rfl
  | false => rw [hv, h0] at this; simp at this

theorem step_pays {v : Variant} {tr : List Ev} {s s' : St} {l : Nat × Act} {es : List Ev} (I : Inv tr s) (h : step v s l = some (s', es)) :
    pot s' < pot s + (if charged s l then 3 else 0) := by
  obtain ⟨t, a⟩ := l
  have hf := free_of_not_taken I
  unfold step at h
  simp only at h
  split at h
  · cases h
  next th hth =>
  obtain ⟨pc, view⟩ := th
  simp only at h
  split at h
  all_goals try simp only [Option.some.injEq, Prod.mk.injEq, reduceCtorEq] at h
  all_goals repeat' (split at h)
  all_goals try simp only [Option.some.injEq, Prod.mk.injEq] at h
  all_goals obtain ⟨rfl, rfl⟩ := h
  all_goals apply move hth
  all_goals simp only [weight, charged, hth]
  all_goals cases hc : taken s
  all_goals simp only [if_true, Bool.false_eq_true, if_false, Bool.or_false, Bool.or_true]
  all_goals repeat' split
  all_goals first | omega | (simp_all; done) | (simp_all; omega)

theorem pays (v : Variant) : Pays (step v) charged (fun s => ∃ tr, Inv tr s) pot 3 where
  inv s l s' es hI h := by obtain ⟨tr, I⟩ := hI; exact ⟨_, inv_step v tr s l s' es I h⟩
  free s l s' es hI h hc := by obtain ⟨tr, I⟩ := hI; have := step_pays I h; rw [hc] at this; simpa using this
  paid s l s' es hI h hc := by obtain ⟨tr, I⟩ := hI; have := step_pays I h; rw [hc] at this; simpa using this

end Verif.Spin.Eff

namespace Verif.SharedSpin.Eff

open Verif.Spec.Effort

/-- How often a thread will still change the word. -/
def changes : PC → Nat
  | .idle | .owner | .sharer => 0
  | _ => 1

/-- How many steps a thread will make while the word is `w`, if it does not have to wait. -/
def near (w : UInt32) : PC → Nat
  | .idle | .owner | .sharer => 0
  | .lockSpin => 2
  | .lockCas | .tryCas | .unlocking | .trySharedCas _ | .sharedUnlocking => 1
  | .trySharedLoad => 2
  | .sharedSpin => 3
  | .sharedLoad => 2
  | .sharedCas cur => if cur = w then 1 else 4

theorem near_le (w w' : UInt32) (pc : PC) : near w' pc ≤ near w pc + 4 := by
  have : near w' pc ≤ 4 := by
    cases pc <;> simp only [near] <;> repeat' split
    all_goals omega
  omega

/-- The share of a thread in the potential; `n` is the number of threads. -/
def weight (w : UInt32) (n : Nat) (th : Th) : Nat := changes th.pc * (5 * n + 5) + near w th.pc

/-- The potential. -/
def pot (s : St) : Nat := total (weight s.word.val s.ths.length) s.ths

theorem stay {s : St} {t : Nat} {a b : Th} {f D : Nat} (h : s.ths[t]? = some a)
    (hw : weight s.word.val s.ths.length b < weight s.word.val s.ths.length a + D) :
    pot ⟨s.word, s.ths.set t b, f⟩ < pot s + D := by
  have := total_set (w := weight s.word.val s.ths.length) (b := b) h
  simp only [pot, List.length_set]
  omega

theorem change {s : St} {t : Nat} {a b : Th} {f D : Nat} {w : Loc UInt32} (h : s.ths[t]? = some a)
    (hw : weight s.word.val s.ths.length b + s.ths.length * 4 < weight s.word.val s.ths.length a + D) :
    pot ⟨w, s.ths.set t b, f⟩ < pot s + D := by
  have h1 := total_set (w := weight s.word.val s.ths.length) (b := b) h
  have h2 := total_le (w := weight s.word.val s.ths.length) (w' := weight w.val s.ths.length) (K := 4)
    (fun x => by have := near_le s.word.val w.val x.pc; simp only [weight]; omega) (s.ths.set t b)
  simp only [pot, List.length_set] at h2 ⊢
  omega

theorem count_ex {s : St} (h : takenExcl s = false) : s.ths.countP Th.isEx = 0 := by
  rw [List.countP_eq_zero]
  rintro ⟨pc, v⟩ ha hown
  have := List.any_eq_false.mp h _ ha
  cases pc <;> simp_all [Th.isEx, PC.own]

theorem count_sh {s : St} (h : taken s = false) : takenExcl s = false ∧ s.ths.countP Th.isSh = 0 := by
  constructor
  · rw [takenExcl, List.any_eq_false]
    rintro ⟨pc, v⟩ ha hown
    have := List.any_eq_false.mp h _ ha
    cases pc <;> simp_all
  · rw [List.countP_eq_zero]
    rintro ⟨pc, v⟩ ha hown
    have := List.any_eq_false.mp h _ ha
    cases pc <;> simp_all [Th.isSh, PC.own]

theorem unlocked_of_not_taken {tr : List Ev} {s : St} (I : Inv tr s) (h : taken s = false) : s.word.val = unlockedState := by
  obtain ⟨h1, h2⟩ := count_sh h
  have h3 := count_ex h1
  rcases I.word with hw | hw
  · apply UInt32.toNat_inj.mp
    rw [hw.2.1, h2]
    rfl
  · omega

theorem readers_of_not_taken {tr : List Ev} {s : St} (I : Inv tr s) (hn : s.ths.length < 2 ^ 31) (h : takenExcl s = false) :
    s.word.val ≠ lockedState ∧ masked s.word.val = s.word.val := by
  have h3 := count_ex h
  rcases I.word with hw | hw
  · have hlt : s.word.val.toNat < 2 ^ 31 := by
      rw [hw.2.1]
      exact Nat.lt_of_le_of_lt List.countP_le_length hn
    constructor
    · intro hc
      rw [hc] at hlt
      exact absurd hlt (by decide)
    · apply UInt32.toNat_inj.mp
      simp only [masked, readerMask, UInt32.toNat_and]
      show s.word.val.toNat &&& (2 ^ 31 - 1) = s.word.val.toNat
      rw [Nat.and_two_pow_sub_one_eq_mod, Nat.mod_eq_of_lt hlt]
  · omega

theorem step_pays {tr : List Ev} {s s' : St} {l : Nat × Act} {es : List Ev} (I : Inv tr s) (hn : s.ths.length < 2 ^ 31)
    (h : step s l = some (s', es)) :
    s'.ths.length = s.ths.length ∧ pot s' < pot s + (if charged s l then 5 * s.ths.length + 10 else 0) := by
  obtain ⟨t, a⟩ := l
  have hf := unlocked_of_not_taken I
  have hr := readers_of_not_taken I hn
  unfold step at h
  simp only at h
  split at h
  · cases h
  next th hth =>
  obtain ⟨pc, view⟩ := th
  simp only at h
  split at h
  all_goals try simp only [Option.some.injEq, Prod.mk.injEq, reduceCtorEq] at h
  all_goals repeat' (split at h)
  all_goals try simp only [Option.some.injEq, Prod.mk.injEq] at h
  all_goals obtain ⟨rfl, rfl⟩ := h
  all_goals simp only [List.length_set, true_and]
  all_goals first
    | with_reducible apply stay hth
    | with_reducible apply change hth
  all_goals simp only [weight, charged, hth, outdated]
  all_goals cases hc : taken s <;> cases hx : takenExcl s
  all_goals try simp only [if_true, Bool.false_eq_true, if_false, Bool.or_false, Bool.or_true]
  all_goals repeat' split
  all_goals try simp only [changes, near]
  all_goals repeat' split
  all_goals first | omega | (simp_all; done) | (simp_all; omega)

theorem pays {n : Nat} (hn : n < 2 ^ 31) :
    Pays step charged (fun s => s.ths.length = n ∧ Locals s ∧ ∃ tr, Inv tr s) pot (5 * n + 10) where
  inv s l s' es hI h := by
    obtain ⟨h0, L, tr, I⟩ := hI
    exact ⟨(step_pays I (by omega) h).1.trans h0, locals_step s l s' es L h, _, inv_step tr s l s' es L I h⟩
  free s l s' es hI h hc := by
    obtain ⟨h0, L, tr, I⟩ := hI; have := (step_pays I (by omega) h).2; rw [hc] at this; simpa using this
  paid s l s' es hI h hc := by
    obtain ⟨h0, L, tr, I⟩ := hI; have := (step_pays I (by omega) h).2; rw [hc, h0] at this; simpa using this

end Verif.SharedSpin.Eff
