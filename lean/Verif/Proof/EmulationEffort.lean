import Verif.Proof.Effort
import Verif.Spec.Charges

/-!
# The potentials of the semaphore-based event, of the emulations and of the condition variables
-/

namespace Verif.AutoSem.Eff

open Verif.Atomic (Kind Op Ev One)
open Verif.Spec.Effort

/-- How often a thread will still change `m_state`. -/
def changes : PC → Nat
  | .pLoad | .pCas _ | .wSem _ | .wSub _ => 1
  | .wAdd _ => 2
  | _ => 0

/-- How many steps a thread will make while `m_state` is `v`. -/
def near (v : Int) : PC → Nat
  | .idle => 0
  | .pLoad => 3
  | .pCas old => if old = v then 1 else 2
  | .pSem => 2
  | .wAdd _ => 1
  | .wSem _ => 3
  | .wSub _ => 1
  | .leave _ _ => 1

theorem near_le (w w' : Int) (pc : PC) : near w' pc ≤ near w pc + 3 := by
  have : near w' pc ≤ 3 := by
    cases pc <;> simp only [near] <;> repeat' split
    all_goals omega
  omega

/-- The share of a thread in the potential; `n` is the number of threads. -/
def weight (v : Int) (n : Nat) (pc : PC) : Nat := changes pc * (4 * n + 4) + near v pc

/-- The potential. -/
def pot (s : St) : Nat := total (weight s.state s.ths.length) s.ths

theorem stay {s : St} {t : Nat} {a b : PC} {f D : Nat} (h : s.ths[t]? = some a)
    (hw : weight s.state s.ths.length b < weight s.state s.ths.length a + D) :
    pot ⟨s.state, f, s.ths.set t b⟩ < pot s + D := by
  have := total_set (w := weight s.state s.ths.length) (b := b) h
  simp only [pot, List.length_set]
  omega

theorem change {s : St} {t : Nat} {a b : PC} {f D : Nat} {w : Int} (h : s.ths[t]? = some a)
    (hw : weight s.state s.ths.length b + s.ths.length * 3 < weight s.state s.ths.length a + D) :
    pot ⟨w, f, s.ths.set t b⟩ < pot s + D := by
  have h1 := total_set (w := weight s.state s.ths.length) (b := b) h
  have h2 := total_le (w := weight s.state s.ths.length) (w' := weight w s.ths.length) (K := 3)
    (fun x => by have := near_le s.state w x; simp only [weight]; omega) (s.ths.set t b)
  simp only [pot, List.length_set] at h2 ⊢
  omega

theorem step_pays {s s' : St} {l : Nat × Act} {es : List (Ev One)} (h : step s l = some (s', es)) :
    s'.ths.length = s.ths.length ∧ pot s' < pot s + (if charged s l then 8 * s.ths.length + 12 else 0) := by
  obtain ⟨t, a⟩ := l
  unfold step at h
  simp only at h
  split at h
  · cases h
  next pc hth =>
  split at h
  all_goals try simp only [Option.some.injEq, Prod.mk.injEq, reduceCtorEq] at h
  all_goals repeat' (split at h)
  all_goals try simp only [Option.some.injEq, Prod.mk.injEq, reduceCtorEq] at h
  all_goals obtain ⟨rfl, rfl⟩ := h
  all_goals simp only [List.length_set, true_and, charged]
  all_goals first
    | with_reducible apply stay hth
    | with_reducible apply change hth
  all_goals simp only [weight, seen]
  all_goals repeat' split
  all_goals try simp only [changes, near]
  all_goals repeat' split
  all_goals first | omega | (simp_all; done) | (simp_all; omega)

theorem pays (n : Nat) : Pays step charged (fun s => s.ths.length = n) pot (8 * n + 12) where
  inv s l s' es hI h := (step_pays h).1.trans hI
  free s l s' es hI h hc := by have := (step_pays h).2; rw [hc] at this; simpa using this
  paid s l s' es hI h hc := by have := (step_pays h).2; rw [hc, hI] at this; simpa using this

end Verif.AutoSem.Eff

namespace Verif.Monitor.Eff

open Verif.Atomic (Kind Op Ev)
open Verif.Spec.Effort

variable {D S : Type}

/-- The time-out of a timed wait is still possible. -/
def spare : Kind → Nat
  | .timed => 5
  | _ => 0

/-- The share of a thread in the potential; `n` is the number of threads. -/
def weight (n : Nat) : PC S → Nat
  | .idle => 0
  | .want k => 5 + spare k
  | .inside k => 4 + spare k
  | .asleep k => spare k
  | .woken k to => if to then 4 else 5 + spare k
  | .expired => 3
  | .early k => 1 + spare k
  | .taking _ _ => 2
  | .wantSig _ => 6 * n + 4
  | .sig _ => 6 * n + 3
  | .notifying _ _ => 6 * n + 2
  | .leave _ _ => 1

/-- The potential. -/
def pot (s : St D S) : Nat := total (weight s.ths.length) s.ths

theorem move {s : St D S} {t : Nat} {a b : PC S} {d : D} {o : Option Nat} {C : Nat} (h : s.ths[t]? = some a)
    (hw : weight s.ths.length b < weight s.ths.length a + C) : pot ⟨d, o, s.ths.set t b⟩ < pot s + C := by
  have := total_set (w := weight s.ths.length) (b := b) h
  simp only [pot, List.length_set]
  omega

theorem two {s : St D S} {t j : Nat} {a b c d : PC S} {x : D} {o : Option Nat} {C : Nat} (h : s.ths[t]? = some a) (hj : s.ths[j]? = some c)
    (hne : j ≠ t) (hw : weight s.ths.length b + weight s.ths.length d < weight s.ths.length a + weight s.ths.length c + C) :
    pot ⟨x, o, (s.ths.set j d).set t b⟩ < pot s + C := by
  have h1 := total_set (w := weight s.ths.length) (b := d) hj
  have hj' : (s.ths.set j d)[t]? = some a := by rw [List.getElem?_set_ne hne]; exact h
  have h2 := total_set (w := weight s.ths.length) (b := b) hj'
  simp only [pot, List.length_set]
  omega

theorem wakeAll {s : St D S} {t : Nat} {a b : PC S} {x : D} {o : Option Nat} {C : Nat} (h : s.ths[t]? = some a)
    (hw : weight s.ths.length b + s.ths.length * 5 < weight s.ths.length a + C) :
    pot ⟨x, o, (s.ths.set t b).map PC.wakeUp⟩ < pot s + C := by
  have h1 := total_set (w := weight s.ths.length) (b := b) h
  have h2 := total_map_le (w := weight s.ths.length) (f := PC.wakeUp) (K := 5) (fun x : PC S => by
    cases x <;> simp only [PC.wakeUp, weight, Bool.false_eq_true, if_false] <;> omega) (s.ths.set t b)
  simp only [pot, List.length_set, List.length_map] at h2 ⊢
  omega

theorem step_pays {M : Mon D S} {s s' : St D S} {l : Nat × Act S} {es : List (Ev S)} (h : step M s l = some (s', es)) :
    s'.ths.length = s.ths.length ∧ pot s' < pot s + (if charged s l then 6 * s.ths.length + 12 else 0) := by
  obtain ⟨t, a⟩ := l
  unfold step at h
  simp only at h
  split at h
  · cases h
  next pc hth =>
  have hlen : 1 ≤ s.ths.length := by
    have := (List.getElem?_eq_some_iff.mp hth).1
    omega
  split at h
  all_goals try simp only [Option.some.injEq, Prod.mk.injEq, reduceCtorEq] at h
  all_goals repeat' (split at h)
  all_goals try simp only [Option.some.injEq, Prod.mk.injEq, reduceCtorEq] at h
  all_goals obtain ⟨rfl, rfl⟩ := h
  all_goals simp only [List.length_set, List.length_map, true_and, charged]
  all_goals first
    | with_reducible apply move hth
    | with_reducible apply wakeAll hth
    | (rename_i hj; refine two hth hj ?_ ?_
       · rintro rfl; rw [hth] at hj; cases hj)
    | (rename_i hj _; refine two hth hj ?_ ?_
       · rintro rfl; rw [hth] at hj; cases hj)
  all_goals repeat' split
  all_goals try simp only [weight, spare]
  all_goals repeat' split
  all_goals first | omega | (simp_all; done) | (simp_all; omega)

theorem pays (M : Mon D S) (n : Nat) : Pays (step M) charged (fun s => s.ths.length = n) pot (6 * n + 12) where
  inv s l s' es hI h := (step_pays h).1.trans hI
  free s l s' es hI h hc := by have := (step_pays h).2; rw [hc] at this; simpa using this
  paid s l s' es hI h hc := by have := (step_pays h).2; rw [hc, hI] at this; simpa using this

end Verif.Monitor.Eff

namespace Verif.CvAny.Eff

open Verif.Spec.Effort

/-- The time-out of a timed wait is still possible. -/
def spare : Kind → Nat
  | .plain => 0
  | _ => 5

/-- The share of a thread in the potential; `n` is the number of threads. -/
def weight (n : Nat) : PC → Nat
  | .idle | .dead => 0
  | .wLock k => 3 + spare k + 3
  | .wRelease k => 2 + spare k + 3
  | .wBlock k => 1 + spare k + 2
  | .blocked k => spare k
  | .wake _ _ => 4
  | .wClock => 3
  | .wExit _ => 2
  | .wRelock _ | .wUnwind => 1
  | .nLock _ => 4 * n + 3
  | .nSignal _ => 4 * n + 2
  | .nUnlock => 1

/-- The potential. -/
def pot (s : St) : Nat := total (weight s.ths.length) s.ths

theorem move {s : St} {t : Nat} {a b : PC} {u o : Option Nat} {C : Nat} (h : s.ths[t]? = some a)
    (hw : weight s.ths.length b < weight s.ths.length a + C) : pot ⟨u, o, s.ths.set t b⟩ < pot s + C := by
  have := total_set (w := weight s.ths.length) (b := b) h
  simp only [pot, List.length_set]
  omega

theorem two {s : St} {t j : Nat} {a b c d : PC} {u o : Option Nat} {C : Nat} (h : s.ths[t]? = some a) (hj : s.ths[j]? = some c)
    (hne : j ≠ t) (hw : weight s.ths.length b + weight s.ths.length d < weight s.ths.length a + weight s.ths.length c + C) :
    pot ⟨u, o, (s.ths.set j d).set t b⟩ < pot s + C := by
  have h1 := total_set (w := weight s.ths.length) (b := d) hj
  have hj' : (s.ths.set j d)[t]? = some a := by rw [List.getElem?_set_ne hne]; exact h
  have h2 := total_set (w := weight s.ths.length) (b := b) hj'
  simp only [pot, List.length_set]
  omega

theorem wakeAll {s : St} {t : Nat} {a b : PC} {u o : Option Nat} {C : Nat} (h : s.ths[t]? = some a) (ha : a.isBlocked = false)
    (hw : weight s.ths.length b + s.ths.length * 4 < weight s.ths.length a + C) :
    pot ⟨u, o, (s.ths.map PC.wakeUp).set t b⟩ < pot s + C := by
  have h0 : (s.ths.map PC.wakeUp)[t]? = some a := by
    rw [List.getElem?_map, h]
    cases a <;> first | rfl | cases ha
  have h1 := total_set (w := weight s.ths.length) (b := b) h0
  have h2 := total_map_le (w := weight s.ths.length) (f := PC.wakeUp) (K := 4) (fun x => by
    cases x <;> simp only [PC.wakeUp, weight] <;> omega) s.ths
  simp only [pot, List.length_set, List.length_map] at h2 ⊢
  omega

theorem step_pays {s s' : St} {l : Nat × Act} {es : List Ev} (h : step s l = some (s', es)) :
    s'.ths.length = s.ths.length ∧ pot s' < pot s + (if charged s l then 4 * s.ths.length + 12 else 0) := by
  obtain ⟨t, a⟩ := l
  unfold step at h
  simp only at h
  split at h
  · cases h
  next pc hth =>
  have hlen : 1 ≤ s.ths.length := by
    have := (List.getElem?_eq_some_iff.mp hth).1
    omega
  split at h
  all_goals try simp only [Option.some.injEq, Prod.mk.injEq, reduceCtorEq] at h
  all_goals repeat' (split at h)
  all_goals try simp only [Option.some.injEq, Prod.mk.injEq, reduceCtorEq] at h
  all_goals obtain ⟨rfl, rfl⟩ := h
  all_goals simp only [List.length_set, List.length_map, true_and, charged]
  all_goals first
    | with_reducible apply move hth
    | refine wakeAll hth rfl ?_
    | (rename_i hj; refine two hth hj ?_ ?_
       · rintro rfl; rw [hth] at hj; cases hj)
    | (simp only [pot, if_true]; omega)
  all_goals repeat' split
  all_goals try simp only [weight, spare]
  all_goals repeat' split
  all_goals first | omega | (simp_all; done) | (simp_all; omega)

theorem pays (n : Nat) : Pays step charged (fun s => s.ths.length = n) pot (4 * n + 12) where
  inv s l s' es hI h := (step_pays h).1.trans hI
  free s l s' es hI h hc := by have := (step_pays h).2; rw [hc] at this; simpa using this
  paid s l s' es hI h hc := by have := (step_pays h).2; rw [hc, hI] at this; simpa using this

end Verif.CvAny.Eff

namespace Verif.CondVarPosix.Eff

open Verif.Spec.Effort

variable {D : Type}

/-- The time-out of a timed wait is still possible. -/
def spare : Kind → Nat
  | .plain => 0
  | _ => 4

/-- The share of a thread in the potential. -/
def weight : PC D → Nat
  | .idle => 0
  | .test k _ => 3 + spare k
  | .clock _ => 2
  | .block k _ => 1 + spare k
  | .asleep k _ => spare k
  | .wake k _ r => match r with | .ok => 4 + spare k | .timeout => 3 | .interrupted => 2 + spare k
  | .last _ => 1

/-- The potential. -/
def pot (s : St D) : Nat := total weight s.ths

theorem move {s : St D} {t : Nat} {a b : PC D} {o : Option Nat} {d : D} {C : Nat} (h : s.ths[t]? = some a)
    (hw : weight b < weight a + C) : pot ⟨o, d, s.ths.set t b⟩ < pot s + C := by
  have := total_set (w := weight) (b := b) h
  simp only [pot]
  omega

theorem wakeAll {s : St D} {o : Option Nat} {d : D} : pot ⟨o, d, s.ths.map PC.wakeUp⟩ ≤ pot s + s.ths.length * 4 := by
  have h2 := total_map_le (w := weight) (f := PC.wakeUp) (K := 4) (fun x : PC D => by
    cases x <;> simp only [PC.wakeUp, weight] <;> omega) s.ths
  simp only [pot] at h2 ⊢
  omega

theorem step_pays {bug : Bool} {s s' : St D} {l : Nat × Act D} {es : List (Ev D)} (h : step bug s l = some (s', es)) :
    s'.ths.length = s.ths.length ∧ pot s' < pot s + (if charged s l then 4 * s.ths.length + 12 else 0) := by
  obtain ⟨t, a⟩ := l
  unfold step at h
  simp only at h
  split at h
  · cases h
  next pc hth =>
  split at h
  all_goals try simp only [Option.some.injEq, Prod.mk.injEq, reduceCtorEq] at h
  all_goals repeat' (split at h)
  all_goals try simp only [Option.some.injEq, Prod.mk.injEq, reduceCtorEq] at h
  all_goals obtain ⟨rfl, rfl⟩ := h
  all_goals simp only [List.length_set, List.length_map, true_and, charged]
  all_goals first
    | with_reducible apply move hth
    | (rename_i hj; with_reducible apply move hj)
    | (have := wakeAll (s := s) (o := s.owner) (d := s.data); simp only [if_true]; omega)
    | (simp only [pot, if_true]; omega)
  all_goals try unfold begin
  all_goals repeat' split
  all_goals try simp only [weight, spare]
  all_goals repeat' split
  all_goals first | omega | (simp_all; done) | (simp_all; omega)

theorem pays (bug : Bool) (n : Nat) : Pays (step (D := D) bug) charged (fun s => s.ths.length = n) pot (4 * n + 12) where
  inv s l s' es hI h := (step_pays h).1.trans hI
  free s l s' es hI h hc := by have := (step_pays h).2; rw [hc] at this; simpa using this
  paid s l s' es hI h hc := by have := (step_pays h).2; rw [hc, hI] at this; simpa using this

end Verif.CondVarPosix.Eff
