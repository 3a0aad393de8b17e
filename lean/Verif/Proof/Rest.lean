import Verif.Proof.AutoFutexEffort
import Verif.Proof.ManualFutexEffort
import Verif.Proof.WinMutexEffort
import Verif.Proof.SpinEffort
import Verif.Proof.EmulationEffort
import Verif.Proof.OnceEffort
import Verif.Proof.ManualEventFutex

/-!
# States of rest
-/

namespace Verif.ManualFutex

/-- A thread that found the event not set when it began to wait, and the event is set now: there was a call of `set()` in between. -/
def Fresh (s : St) : Prop :=
  ∀ (i : Nat) (th : Th), s.ths[i]? = some th →
    match th.pc with
    | .sleepCall _ _ b | .asleep _ b | .reload _ b => b ≤ s.sets ∧ (isSet s.word.val = true → b < s.sets)
    | _ => True

theorem fresh_set {s : St} {t : Nat} {th : Th} {w : Loc UInt32} {f k : Nat} (hF : Fresh s) (hk : s.sets ≤ k)
    (hw : isSet w.val = true → isSet s.word.val = true ∨ s.sets < k)
    (hth : match th.pc with
      | .sleepCall _ _ b | .asleep _ b | .reload _ b => b ≤ k ∧ (isSet w.val = true → b < k)
      | _ => True) :
    Fresh ⟨w, s.ths.set t th, f, k⟩ := by
  intro i x hx
  rw [List.getElem?_set] at hx
  split at hx
  · split at hx
    · cases hx; exact hth
    · cases hx
  · have := hF i x hx
    cases hp : x.pc <;> simp only [hp] at this ⊢
    all_goals refine ⟨by omega, fun h => ?_⟩
    all_goals rcases hw h with h | h
    all_goals first | (have := this.2 h; omega) | omega

theorem isSet_add {w : UInt32} : isSet (w + waitOne) = isSet w := by
  have e := add_toNat w
  cases h : isSet w
  · rw [isSet_false_iff] at h ⊢; omega
  · rw [isSet_iff] at h ⊢; omega

theorem isSet_sub {w : UInt32} : isSet (w - waitOne) = isSet w := by
  have e := sub_toNat w
  cases h : isSet w
  · rw [isSet_false_iff] at h ⊢; omega
  · rw [isSet_iff] at h ⊢; omega

theorem isSet_and {w : UInt32} : isSet (w &&& waitMask) = false := by
  have e := and_toNat w
  rw [isSet_false_iff]; omega

theorem rmw_val {w : Loc UInt32} {o : Order} {v : View} {x : UInt32} : (w.rmw o v x).1.val = x := by
  cases o <;> rfl

theorem fresh_step {s s' : St} {l : Nat × Act} {es : List Ev} (hF : Fresh s) (h : step s l = some (s', es)) : Fresh s' := by
  obtain ⟨t, a⟩ := l
  unfold step at h
  simp only at h
  split at h
  · cases h
  next th hth =>
  obtain ⟨pc, v⟩ := th
  have hT := hF t _ hth
  simp only at h hT
  split at h
  all_goals try simp only [Option.some.injEq, Prod.mk.injEq, reduceCtorEq] at h
  all_goals repeat' (split at h)
  all_goals try simp only [Option.some.injEq, Prod.mk.injEq, reduceCtorEq] at h
  all_goals obtain ⟨rfl, rfl⟩ := h
  all_goals first
    | (refine fresh_set hF (Nat.le_refl _) (fun h => Or.inl h) ?_; first | trivial | exact hT | (simp_all; done))
    | (refine fresh_set hF (Nat.le_succ _) (fun h => Or.inr (Nat.lt_succ_self _)) ?_; trivial)
    | (refine fresh_set hF (Nat.le_refl _) (fun h => Or.inl ?_) ?_
       · rw [rmw_val] at h; first | (rw [isSet_add] at h; exact h) | (rw [isSet_sub] at h; exact h) | (rw [isSet_and] at h; cases h)
       · first | trivial | (simp only [rmw_val]; simp_all; done))
    | skip
  intro i x hx
  simp only [List.getElem?_map, Option.map_eq_some_iff] at hx
  obtain ⟨y, hy, rfl⟩ := hx
  rw [List.getElem?_set] at hy
  split at hy
  · split at hy
    · cases hy; trivial
    · cases hy
  · have := hF i y hy
    obtain ⟨pc, v⟩ := y
    cases pc <;> exact this

theorem fresh_reach {n : Nat} {s : St} (h : Reachable step (init n) s) : Fresh s := by
  refine Reachable.invariant Fresh ?_ (fun _ _ _ _ hF h => fresh_step hF h) h
  intro i th hth
  simp only [init, List.getElem?_replicate] at hth
  split at hth <;> cases hth
  trivial

end Verif.ManualFutex

namespace Verif.TimerInit

/-- The modules the threads work on exist. -/
def InBounds (s : St) : Prop := ∀ pc ∈ s.ths, ∀ m, pc.mod = some m → m < s.mods.length

theorem inBounds_set {s : St} {t : Nat} {pc : PC} {ms : List Mod} {x : Option Nat} {y : List Nat} (hB : InBounds s)
    (hl : ms.length = s.mods.length) (h : ∀ m, pc.mod = some m → m < s.mods.length) : InBounds ⟨ms, x, y, s.ths.set t pc⟩ := by
  intro q hq m hm
  rcases List.mem_or_eq_of_mem_set hq with h1 | h1
  · have := hB q h1 m hm; simp only; omega
  · subst h1; have := h m hm; simp only; omega

theorem inBounds_step {s s' : St} {l : Nat × Act} {es : List Ev} (hB : InBounds s) (h : step s l = some (s', es)) : InBounds s' := by
  obtain ⟨t, a⟩ := l
  unfold step at h
  simp only at h
  split at h
  · cases h
  next pc hth =>
  have hT := hB _ (List.mem_of_getElem? hth)
  split at h
  all_goals try simp only [Option.some.injEq, Prod.mk.injEq, reduceCtorEq] at h
  all_goals repeat' (split at h)
  all_goals try simp only [Option.some.injEq, Prod.mk.injEq, reduceCtorEq] at h
  all_goals obtain ⟨rfl, rfl⟩ := h
  all_goals refine inBounds_set hB (by simp) ?_
  all_goals intro m' hm'
  all_goals simp only [PC.mod, Option.some.injEq, reduceCtorEq] at hm'
  all_goals first | (subst hm'; first | assumption | exact hT _ rfl)

theorem inBounds_reach {c n : Nat} {s : St} (h : Reachable step (init c n) s) : InBounds s := by
  refine Reachable.invariant InBounds ?_ (fun _ _ _ _ hB h => inBounds_step hB h) h
  intro pc hpc m hm
  simp only [init, List.mem_replicate] at hpc
  rw [hpc.2] at hm
  cases hm

end Verif.TimerInit
