import Verif.Proof.Effort
import Verif.Spec.Charges
import Verif.Proof.TimerInit
import Verif.Proof.TssOnce
import Verif.Proof.WinCondVarTerm

/-!
# The potentials of the one-time initialisations, and the Windows condition variable
-/

namespace Verif.TimerInit.Eff

open Verif.Spec.Effort

/-- How many steps a thread will make if it does not have to wait. -/
def weight : PC → Nat
  | .idle => 0
  | .load _ => 11
  | .cas _ => 10
  | .openSem _ => 9
  | .alloc _ => 8
  | .create _ _ => 7
  | .free _ _ => 6
  | .query _ => 5
  | .alloc2 _ => 4
  | .setKey _ _ => 3
  | .publish _ => 2
  | .fail _ => 1
  | .ready _ => 1

/-- The potential. -/
def pot (s : St) : Nat := total weight s.ths

theorem move {s : St} {t : Nat} {a b : PC} {x : List Mod} {y : Option Nat} {z : List Nat} {C : Nat} (h : s.ths[t]? = some a)
    (hw : weight b < weight a + C) : pot ⟨x, y, z, s.ths.set t b⟩ < pot s + C := by
  have := total_set (w := weight) (b := b) h
  simp only [pot]
  omega

theorem underway_of_flag {tr : List Ev} {s : St} (I : Inv tr s) {m : Nat} {d : Mod} (hd : s.mods[m]? = some d) (h0 : d.flag ≠ 0)
    (h2 : d.flag ≠ 2) : underway s m = true := by
  obtain ⟨p, _, M⟩ := I m d hd
  have hr := M.rel
  cases p with
  | fresh => exact absurd hr h0
  | complete k => exact absurd hr.1 h2
  | running i =>
    obtain ⟨pc, hpc, hc⟩ := M.run i rfl
    refine List.any_eq_true.mpr ⟨pc, List.mem_of_getElem? hpc, ?_⟩
    cases pc <;> simp_all [PC.crit, PC.mod]

theorem step_pays {tr : List Ev} {s s' : St} {l : Nat × Act} {es : List Ev} (I : Inv tr s) (h : step s l = some (s', es)) :
    pot s' < pot s + (if charged s l then 12 else 0) := by
  obtain ⟨t, a⟩ := l
  have hu := fun m d => underway_of_flag I (m := m) (d := d)
  unfold step at h
  simp only at h
  split at h
  · cases h
  next pc hth =>
  split at h
  all_goals try simp only [Option.some.injEq, Prod.mk.injEq, reduceCtorEq] at h
  all_goals repeat' (split at h)
  all_goals try simp only [Option.some.injEq, Prod.mk.injEq, reduceCtorEq] at h
  all_goals obtain ⟨rfl, rfl⟩ := h
  all_goals apply move hth
  all_goals simp only [weight, charged, hth]
  all_goals repeat' split
  all_goals first | omega | (simp_all; done) | (simp_all; omega)

theorem pays : Pays step charged (fun s => ∃ tr, Inv tr s) pot 12 where
  inv s l s' es hI h := by obtain ⟨tr, I⟩ := hI; exact ⟨_, step_inv tr s l s' es I h⟩
  free s l s' es hI h hc := by obtain ⟨tr, I⟩ := hI; have := step_pays I h; rw [hc] at this; simpa using this
  paid s l s' es hI h hc := by obtain ⟨tr, I⟩ := hI; have := step_pays I h; rw [hc] at this; simpa using this

end Verif.TimerInit.Eff

namespace Verif.TssOnce.Eff

open Verif.Spec.Effort

/-- How many steps a thread will make if it does not have to wait. -/
def weight : PC → Nat
  | .idle => 0
  | .load => 6
  | .cas => 5
  | .construct => 4
  | .tls => 3
  | .publish => 2
  | .ready => 1

/-- The potential; nothing happens after the process was aborted. -/
def pot (s : St) : Nat := if s.aborted then 0 else total weight s.ths

theorem move {s : St} {t : Nat} {a b : PC} {x y : Nat} {C : Nat} (ha : s.aborted = false) (h : s.ths[t]? = some a)
    (hw : weight b < weight a + C) : pot ⟨x, y, s.aborted, s.ths.set t b⟩ < pot s + C := by
  have := total_set (w := weight) (b := b) h
  simp only [pot, ha, Bool.false_eq_true, if_false]
  omega

theorem underway_of_flag {tr : List Ev} {s : St} (I : Inv tr s) (h0 : s.flag ≠ 0) (h2 : s.flag ≠ 2) : underway s = true := by
  obtain ⟨p, _, P⟩ := I
  have hr := P.rel
  cases p with
  | fresh => exact absurd hr h0
  | complete k => exact absurd hr.1 h2
  | running i =>
    obtain ⟨pc, hpc, hc⟩ := P.run i rfl
    refine List.any_eq_true.mpr ⟨pc, List.mem_of_getElem? hpc, ?_⟩
    cases pc <;> simp_all [PC.crit]

theorem step_pays {tr : List Ev} {s s' : St} {l : Nat × Act} {es : List Ev} (I : Inv tr s) (h : step s l = some (s', es)) :
    pot s' < pot s + (if charged s l then 7 else 0) := by
  obtain ⟨t, a⟩ := l
  have hu := underway_of_flag I
  unfold step at h
  simp only at h
  split at h
  · cases h
  next hab =>
  have hab : s.aborted = false := by simpa using hab
  split at h
  · cases h
  next pc hth =>
  split at h
  all_goals try simp only [Option.some.injEq, Prod.mk.injEq, reduceCtorEq] at h
  all_goals repeat' (split at h)
  all_goals try simp only [Option.some.injEq, Prod.mk.injEq, reduceCtorEq] at h
  all_goals obtain ⟨rfl, rfl⟩ := h
  all_goals first
    | with_reducible apply move hab hth
    | (have := le_total (w := weight) hth
       simp only [pot, hab, weight, if_true, Bool.false_eq_true, if_false] at this ⊢
       omega)
  all_goals simp only [weight, charged, hth]
  all_goals repeat' split
  all_goals first | omega | (simp_all; done) | (simp_all; omega)

theorem pays : Pays step charged (fun s => ∃ tr, Inv tr s) pot 7 where
  inv s l s' es hI h := by obtain ⟨tr, I⟩ := hI; exact ⟨_, step_inv tr s l s' es I h⟩
  free s l s' es hI h hc := by obtain ⟨tr, I⟩ := hI; have := step_pays I h; rw [hc] at this; simpa using this
  paid s l s' es hI h hc := by obtain ⟨tr, I⟩ := hI; have := step_pays I h; rw [hc] at this; simpa using this

end Verif.TssOnce.Eff

namespace Verif.WinCv.Eff

open Verif.Spec.Effort

theorem settles (n : Nat) : Settles step (init n) charged := by
  intro f l hr hf i
  have hI : ∀ j, Good (f j) := by
    intro j
    have hre : Reachable step (init n) (f j) := by
      induction j with
      | zero => exact hr
      | succ j ih => obtain ⟨es, h⟩ := hf j; exact ih.snoc h
    obtain ⟨tr, h⟩ := hre
    exact good_exec h
  apply Classical.byContradiction
  intro hno
  have key : ∀ s, Acc (fun b a => Inner a b) s → ∀ j, i ≤ j → f j = s → False := by
    intro s hs
    induction hs with
    | intro s _ ih =>
      intro j hj hfj
      obtain ⟨es, h⟩ := hf j
      refine ih (f (j + 1)) ?_ (j + 1) (by omega) rfl
      rw [← hfj]
      have hc : charged (f j) (l j) ≠ true := fun hc => hno ⟨j, hj, hc⟩
      revert h hc
      obtain ⟨t, a⟩ := l j
      intro h hc
      refine ⟨t, a, es, ?_, h⟩
      cases a <;> simp_all [charged]
  exact key _ (inner_acc (hI i)) i (Nat.le_refl _) rfl

end Verif.WinCv.Eff
