import Verif.Proof.Effort
import Verif.Spec.Charges
import Verif.Proof.ManualEventFutex

/-!
# The potential of the futex-based manual_reset_event

As for the auto_reset_event (`Verif.Proof.AutoFutexEffort`); `set()` may wake all threads.
-/

namespace Verif.ManualFutex.Eff

open Verif.Spec.Effort

/-- How often a thread will still change the word. -/
def changes : PC → Nat
  | .idle | .setWake => 0
  | .tryLoad _ | .add _ => 2
  | _ => 1

/-- A thread will still wake the others. -/
def wakes : PC → Nat
  | .setOr | .setWake => 1
  | _ => 0

/-- The time-out of a timed wait is still possible. -/
def spare : Kind → Nat
  | .timed => 2
  | _ => 0

/-- How many steps a thread will make while the word is `w`. -/
def near (w : UInt32) : PC → Nat
  | .idle => 0
  | .setOr | .setWake | .resetAnd => 1
  | .tryLoad _ => 2
  | .add _ => 1
  | .sleepCall k e _ => (if e = w then 1 else 3) + spare k
  | .asleep k _ => spare k
  | .reload k _ => 2 + spare k
  | .sub _ => 1
  | .timedOut => 1

theorem near_le (w w' : UInt32) (pc : PC) : near w' pc ≤ near w pc + 5 := by
  have : near w' pc ≤ 5 := by
    cases pc <;> simp only [near, spare] <;> repeat' split
    all_goals omega
  omega

/-- The share of a thread in the potential; `n` is the number of threads. -/
def weight (w : UInt32) (n : Nat) (th : Th) : Nat := changes th.pc * (6 * n + 6) + wakes th.pc * (6 * n + 6) + near w th.pc

/-- The potential. -/
def pot (s : St) : Nat := total (weight s.word.val s.ths.length) s.ths

theorem stay {s : St} {t : Nat} {a b : Th} {f g D : Nat} (h : s.ths[t]? = some a)
    (hw : weight s.word.val s.ths.length b < weight s.word.val s.ths.length a + D) :
    pot ⟨s.word, s.ths.set t b, f, g⟩ < pot s + D := by
  have := total_set (w := weight s.word.val s.ths.length) (b := b) h
  simp only [pot, List.length_set]
  omega

theorem change {s : St} {t : Nat} {a b : Th} {f g D : Nat} {w : Loc UInt32} (h : s.ths[t]? = some a)
    (hw : weight s.word.val s.ths.length b + s.ths.length * 5 < weight s.word.val s.ths.length a + D) :
    pot ⟨w, s.ths.set t b, f, g⟩ < pot s + D := by
  have h1 := total_set (w := weight s.word.val s.ths.length) (b := b) h
  have h2 := total_le (w := weight s.word.val s.ths.length) (w' := weight w.val s.ths.length) (K := 5)
    (fun x => by have := near_le s.word.val w.val x.pc; simp only [weight]; omega) (s.ths.set t b)
  simp only [pot, List.length_set] at h2 ⊢
  omega

theorem wakeAll {s : St} {t : Nat} {a b : Th} {f g D : Nat} (h : s.ths[t]? = some a)
    (hw : weight s.word.val s.ths.length b + s.ths.length * 5 < weight s.word.val s.ths.length a + D) :
    pot ⟨s.word, (s.ths.set t b).map Th.wakeUp, f, g⟩ < pot s + D := by
  have h1 := total_set (w := weight s.word.val s.ths.length) (b := b) h
  have h2 := total_map_le (w := weight s.word.val s.ths.length) (f := Th.wakeUp) (K := 5) (fun x => by
    obtain ⟨pc, v⟩ := x
    cases pc <;> simp only [Th.wakeUp, weight, changes, wakes, near] <;> omega) (s.ths.set t b)
  simp only [pot, List.length_set, List.length_map] at h2 ⊢
  omega

theorem step_pays {s s' : St} {l : Nat × Act} {es : List Ev} (h : step s l = some (s', es)) :
    s'.ths.length = s.ths.length ∧ pot s' < pot s + (if charged s l then 12 * s.ths.length + 20 else 0) := by
  obtain ⟨t, a⟩ := l
  unfold step at h
  simp only at h
  split at h
  · cases h
  next th hth =>
  obtain ⟨pc, view⟩ := th
  simp only at h
  split at h
  all_goals try simp only [Option.some.injEq, Prod.mk.injEq, reduceCtorEq] at h
  all_goals repeat' (split at h)
  all_goals try simp only [Option.some.injEq, Prod.mk.injEq, reduceCtorEq] at h
  all_goals obtain ⟨rfl, rfl⟩ := h
  all_goals simp only [List.length_set, List.length_map, true_and, charged]
  all_goals first
    | with_reducible apply stay hth
    | with_reducible apply change hth
    | with_reducible apply wakeAll hth
  all_goals simp only [weight, changes, wakes, near, spare, if_true, Bool.false_eq_true, if_false]
  all_goals repeat' split
  all_goals first | omega | (simp_all; done) | (simp_all; omega)

theorem pays (n : Nat) : Pays step charged (fun s => s.ths.length = n) pot (12 * n + 20) where
  inv s l s' es hI h := (step_pays h).1.trans hI
  free s l s' es hI h hc := by have := (step_pays h).2; rw [hc] at this; simpa using this
  paid s l s' es hI h hc := by have := (step_pays h).2; rw [hc, hI] at this; simpa using this

end Verif.ManualFutex.Eff
