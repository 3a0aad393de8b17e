import Verif.Proof.Effort
import Verif.Spec.Charges
import Verif.Proof.WinMutex

/-!
# The potential of the Windows mutex

As for the futex-based events (`Verif.Proof.AutoFutexEffort`).  The event of the mutex has a share, too: it lets one thread out of its wait, which then
changes the word once before it owns the mutex or waits again.
-/

namespace Verif.WinMutex.Eff

open Verif.Spec.Effort

/-- How often a thread, or those it lets out of their waits, will still change the word. -/
def changes : PC → Nat
  | .idle | .owner => 0
  | .tryBts _ => 3
  | .load _ | .mark _ _ | .clr _ _ | .unlSet => 2
  | .evWait _ _ | .sub _ _ => 1
  | .unlBts => 3
  | .unlAdd => 4

/-- How many steps a thread will make while the word is `w`. -/
def near (w : UInt32) : PC → Nat
  | .idle | .owner => 0
  | .load _ => 3
  | .mark _ old | .clr _ old => if old = w then 1 else 2
  | .evWait _ _ => 2
  | _ => 1

theorem near_le (w w' : UInt32) (pc : PC) : near w' pc ≤ near w pc + 3 := by
  have : near w' pc ≤ 3 := by
    cases pc <;> simp only [near] <;> repeat' split
    all_goals omega
  omega

/-- The share of a thread in the potential; `n` is the number of threads. -/
def weight (w : UInt32) (n : Nat) (th : Th) : Nat := changes th.pc * (4 * n + 4) + near w th.pc

/-- The share of the event. -/
def evWeight (ev : Bool) (n : Nat) : Nat := (if ev then 2 else 0) * (4 * n + 4)

/-- The potential. -/
def pot (s : St) : Nat := total (weight s.word.val s.ths.length) s.ths + evWeight s.ev s.ths.length

theorem stay {s : St} {t : Nat} {a b : Th} {f D : Nat} {e : Bool} {m : View} (h : s.ths[t]? = some a)
    (hw : weight s.word.val s.ths.length b + evWeight e s.ths.length <
      weight s.word.val s.ths.length a + evWeight s.ev s.ths.length + D) :
    pot ⟨s.word, e, m, s.ths.set t b, f⟩ < pot s + D := by
  have := total_set (w := weight s.word.val s.ths.length) (b := b) h
  simp only [pot, List.length_set]
  omega

theorem change {s : St} {t : Nat} {a b : Th} {f D : Nat} {w : Loc UInt32} {m : View} (h : s.ths[t]? = some a)
    (hw : weight s.word.val s.ths.length b + s.ths.length * 3 < weight s.word.val s.ths.length a + D) :
    pot ⟨w, s.ev, m, s.ths.set t b, f⟩ < pot s + D := by
  have h1 := total_set (w := weight s.word.val s.ths.length) (b := b) h
  have h2 := total_le (w := weight s.word.val s.ths.length) (w' := weight w.val s.ths.length) (K := 3)
    (fun x => by have := near_le s.word.val w.val x.pc; simp only [weight]; omega) (s.ths.set t b)
  simp only [pot, List.length_set] at h2 ⊢
  omega

theorem step_pays {s s' : St} {l : Nat × Act} {es : List Ev} (h : step s l = some (s', es)) :
    s'.ths.length = s.ths.length ∧ pot s' < pot s + (if charged s l then 16 * s.ths.length + 20 else 0) := by
  obtain ⟨t, a⟩ := l
  unfold step at h
  simp only at h
  split at h
  · cases h
  next th hth =>
  obtain ⟨pc, view⟩ := th
  simp only at h
  split at h
  all_goals try simp only [Option.some.injEq, Prod.mk.injEq, reduceCtorEq] at h
  all_goals repeat' (split at h)
  all_goals try simp only [Option.some.injEq, Prod.mk.injEq, reduceCtorEq] at h
  all_goals obtain ⟨rfl, rfl⟩ := h
  all_goals simp only [List.length_set, true_and, charged]
  all_goals first
    | with_reducible apply stay hth
    | with_reducible apply change hth
  all_goals simp only [weight, changes, near, evWeight, if_true, Bool.false_eq_true, if_false]
  all_goals repeat' split
  all_goals first | omega | (simp_all; done) | (simp_all; omega)

theorem pays (n : Nat) : Pays step charged (fun s => s.ths.length = n) pot (16 * n + 20) where
  inv s l s' es hI h := (step_pays h).1.trans hI
  free s l s' es hI h hc := by have := (step_pays h).2; rw [hc] at this; simpa using this
  paid s l s' es hI h hc := by have := (step_pays h).2; rw [hc, hI] at this; simpa using this

end Verif.WinMutex.Eff
