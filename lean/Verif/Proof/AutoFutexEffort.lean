import Verif.Proof.Effort
import Verif.Spec.Charges
import Verif.Proof.AutoEventFutex

/-!
# The potential of the futex-based auto_reset_event

Every call changes the word at most twice.  Between two changes of the word a thread makes only a few steps, since a thread that has read the present word
does not loop.
-/

namespace Verif.AutoFutex.Eff

open Verif.Spec.Effort

/-- How often a thread will still change the word. -/
def changes : PC → Nat
  | .idle | .postSignal => 0
  | .postLoad | .postLoop _ => 1
  | .tryLoad _ | .tryLoop _ _ | .add _ => 2
  | _ => 1

/-- How many threads a thread will still wake. -/
def wakes : PC → Nat
  | .postLoad | .postLoop _ | .postSignal => 1
  | _ => 0

/-- The time-out of a timed wait is still possible. -/
def spare : Kind → Nat
  | .timed => 4
  | _ => 0

/-- How many steps a thread will make while the word is `w`. -/
def near (w : UInt32) : PC → Nat
  | .idle => 0
  | .postLoad => 3
  | .postLoop old => if old = w then 1 else 2
  | .postSignal => 1
  | .tryLoad _ => 4
  | .tryLoop _ old => if old = w then 2 else 3
  | .add _ => 1
  | .waitTop k old => (if old = w then 4 else 6) + spare k
  | .sleepCall k e => (if e = w then 1 else 3) + spare k
  | .asleep k => spare k
  | .reload k => 2 + spare k
  | .cas k old => (if old = w then 1 else 5) + spare k
  | .toLoad => 3
  | .toLoop old => if old = w then 1 else 2

theorem near_le (w w' : UInt32) (pc : PC) : near w' pc ≤ near w pc + 10 := by
  have : near w' pc ≤ 10 := by
    cases pc <;> simp only [near] <;> first | omega | skip
    all_goals
      try split
      all_goals first | omega | (rename_i k; cases k <;> simp only [spare] <;> omega) | (rename_i k _ _; cases k <;> simp only [spare] <;> omega)
  omega

/-- The share of a thread in the potential; `n` is the number of threads. -/
def weight (w : UInt32) (n : Nat) (th : Th) : Nat := changes th.pc * (11 * n + 11) + wakes th.pc * 11 + near w th.pc

/-- The potential. -/
def pot (s : St) : Nat := total (weight s.word.val s.ths.length) s.ths

theorem pot_stay {s : St} {t : Nat} {a b : Th} {f : Nat} (h : s.ths[t]? = some a) :
    pot ⟨s.word, s.ths.set t b, f⟩ + weight s.word.val s.ths.length a = pot s + weight s.word.val s.ths.length b := by
  simp only [pot, List.length_set]
  exact total_set h

theorem pot_change {s : St} {t : Nat} {a b : Th} {f : Nat} {w : Loc UInt32} (h : s.ths[t]? = some a) :
    pot ⟨w, s.ths.set t b, f⟩ + weight s.word.val s.ths.length a ≤ pot s + weight s.word.val s.ths.length b + s.ths.length * 10 := by
  have h1 := total_set (w := weight s.word.val s.ths.length) (b := b) h
  have h2 := total_le (w := weight s.word.val s.ths.length) (w' := weight w.val s.ths.length) (K := 10)
    (fun x => by have := near_le s.word.val w.val x.pc; simp only [weight]; omega) (s.ths.set t b)
  simp only [pot, List.length_set] at h2 ⊢
  omega

theorem stay {s : St} {t : Nat} {a b : Th} {f D : Nat} (h : s.ths[t]? = some a)
    (hw : weight s.word.val s.ths.length b < weight s.word.val s.ths.length a + D) :
    pot ⟨s.word, s.ths.set t b, f⟩ < pot s + D := by
  have := pot_stay (b := b) (f := f) h
  omega

theorem change {s : St} {t : Nat} {a b : Th} {f D : Nat} {w : Loc UInt32} (h : s.ths[t]? = some a)
    (hw : weight s.word.val s.ths.length b + s.ths.length * 10 < weight s.word.val s.ths.length a + D) :
    pot ⟨w, s.ths.set t b, f⟩ < pot s + D := by
  have := pot_change (b := b) (f := f) (w := w) h
  omega

theorem two {s : St} {t j : Nat} {a b c d : Th} {f D : Nat} (h : s.ths[t]? = some a) (hj : s.ths[j]? = some c) (hne : t ≠ j)
    (hw : weight s.word.val s.ths.length b + weight s.word.val s.ths.length d <
      weight s.word.val s.ths.length a + weight s.word.val s.ths.length c + D) :
    pot ⟨s.word, (s.ths.set t b).set j d, f⟩ < pot s + D := by
  have h1 := total_set (w := weight s.word.val s.ths.length) (b := b) h
  have hj' : (s.ths.set t b)[j]? = some c := by rw [List.getElem?_set_ne hne]; exact hj
  have h2 := total_set (w := weight s.word.val s.ths.length) (b := d) hj'
  simp only [pot, List.length_set]
  omega

theorem step_pays {s s' : St} {l : Nat × Act} {es : List Ev} (h : step s l = some (s', es)) :
    s'.ths.length = s.ths.length ∧ pot s' < pot s + (if charged s l then 22 * s.ths.length + 40 else 0) := by
  obtain ⟨t, a⟩ := l
  unfold step at h
  simp only at h
  split at h
  · cases h
  next th hth =>
  obtain ⟨pc, view⟩ := th
  simp only at h
  split at h
  all_goals try simp only [Option.some.injEq, Prod.mk.injEq, reduceCtorEq] at h
  all_goals repeat' (split at h)
  all_goals try simp only [Option.some.injEq, Prod.mk.injEq, reduceCtorEq] at h
  all_goals obtain ⟨rfl, rfl⟩ := h
  all_goals simp only [List.length_set, true_and, charged]
  all_goals first
    | with_reducible apply stay hth
    | with_reducible apply change hth
    | (rename_i hj; refine two hth hj ?_ ?_
       · rintro rfl; rw [hth] at hj; cases hj)
  all_goals simp only [weight, changes, wakes, near, spare, if_true, Bool.false_eq_true, if_false]
  all_goals repeat' split
  all_goals first | omega | (simp_all; done) | (simp_all; omega)

theorem pays (n : Nat) : Pays step charged (fun s => s.ths.length = n) pot (22 * n + 40) where
  inv s l s' es hI h := (step_pays h).1.trans hI
  free s l s' es hI h hc := by have := (step_pays h).2; rw [hc] at this; simpa using this
  paid s l s' es hI h hc := by have := (step_pays h).2; rw [hc, hI] at this; simpa using this

end Verif.AutoFutex.Eff
