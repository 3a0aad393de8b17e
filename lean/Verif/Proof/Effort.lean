import Verif.Spec.Effort

/-!
# Potentials

The method of potentials for `Verif.Spec.Effort`, and sums over the threads.
-/

namespace Verif.Spec.Effort

variable {σ ι ε : Type}

theorem run_append {step : StepFn σ ι ε} {s s₁ s₂ : σ} {l₁ l₂ : List ι} {t₁ t₂ : List ε} (h₁ : runFrom step s l₁ = some (s₁, t₁))
    (h₂ : runFrom step s₁ l₂ = some (s₂, t₂)) : runFrom step s (l₁ ++ l₂) = some (s₂, t₁ ++ t₂) := by
  induction l₁ generalizing s t₁ with
  | nil => simp only [runFrom, Option.some.injEq, Prod.mk.injEq] at h₁; obtain ⟨rfl, rfl⟩ := h₁; exact h₂
  | cons l ls ih =>
    simp only [runFrom] at h₁
    simp only [List.cons_append, runFrom]
    split at h₁
    · cases h₁
    next s' es hs =>
      split at h₁
      · cases h₁
      next s'' es' hr =>
        simp only [Option.some.injEq, Prod.mk.injEq] at h₁
        obtain ⟨rfl, rfl⟩ := h₁
        rw [ih hr]
        simp

/-- A potential `μ` pays for the steps: steps that are not charged decrease it, charged ones increase it by less than `D`. -/
structure Pays (step : StepFn σ ι ε) (charged : σ → ι → Bool) (I : σ → Prop) (μ : σ → Nat) (D : Nat) : Prop where
  inv : ∀ s l s' es, I s → step s l = some (s', es) → I s'
  free : ∀ s l s' es, I s → step s l = some (s', es) → charged s l = false → μ s' < μ s
  paid : ∀ s l s' es, I s → step s l = some (s', es) → charged s l = true → μ s' < μ s + D

variable {step : StepFn σ ι ε} {charged : σ → ι → Bool} {I : σ → Prop} {μ : σ → Nat} {D : Nat}

theorem Pays.run (P : Pays step charged I μ D) {ls : List ι} {s s' : σ} {tr : List ε} (hI : I s)
    (h : runFrom step s ls = some (s', tr)) : ls.length + μ s' ≤ μ s + D * charges step charged s ls := by
  induction ls generalizing s tr with
  | nil => simp only [runFrom, Option.some.injEq, Prod.mk.injEq] at h; simp [h.1]
  | cons l ls ih =>
    simp only [runFrom] at h
    split at h
    · cases h
    · next s1 es hs =>
      split at h
      · cases h
      · next s2 es' hr =>
        cases h
        have := ih (P.inv _ _ _ _ hI hs) hr
        simp only [charges, hs, List.length_cons, Nat.mul_add]
        cases hc : charged s l with
        | false =>
          have := P.free _ _ _ _ hI hs hc
          simp only [Bool.false_eq_true, if_false, Nat.mul_zero]
          omega
        | true =>
          have := P.paid _ _ _ _ hI hs hc
          simp only [if_true, Nat.mul_one]
          omega

theorem Pays.bounded (P : Pays step charged I μ D) {s₀ : σ} (h0 : I s₀) (hμ : μ s₀ = 0) : Bounded step s₀ charged D := by
  intro ls s tr h
  have := P.run h0 h
  omega

theorem Pays.settles (P : Pays step charged I μ D) {s₀ : σ} (h0 : I s₀) : Settles step s₀ charged := by
  intro f l hr hf i
  have hI : ∀ j, I (f j) := by
    intro j
    induction j with
    | zero => exact hr.invariant I h0 P.inv
    | succ j ih => obtain ⟨es, h⟩ := hf j; exact P.inv _ _ _ _ ih h
  apply Classical.byContradiction
  intro hno
  have hno' : ∀ j, i ≤ j → charged (f j) (l j) = false := by
    intro j hj
    cases hc : charged (f j) (l j) with
    | false => rfl
    | true => exact absurd ⟨j, hj, hc⟩ hno
  have key : ∀ k, μ (f (i + k)) + k ≤ μ (f i) := by
    intro k
    induction k with
    | zero => simp
    | succ k ih =>
      obtain ⟨es, h⟩ := hf (i + k)
      have := P.free _ _ _ _ (hI _) h (hno' _ (by omega))
      show μ (f (i + k + 1)) + (k + 1) ≤ μ (f i)
      omega
  have := key (μ (f i) + 1)
  omega

/-! ## Sums over the threads -/

variable {α : Type}

/-- The sum of a weight over the threads. -/
def total (w : α → Nat) : List α → Nat
  | [] => 0
  | a :: l => w a + total w l

theorem total_set {w : α → Nat} {l : List α} {i : Nat} {a b : α} (h : l[i]? = some a) :
    total w (l.set i b) + w a = total w l + w b := by
  induction l generalizing i with
  | nil => simp at h
  | cons x xs ih =>
    cases i with
    | zero =>
      simp only [List.getElem?_cons_zero, Option.some.injEq] at h
      subst h
      simp only [List.set_cons_zero, total]
      omega
    | succ i =>
      simp only [List.getElem?_cons_succ] at h
      have := ih h
      simp only [List.set_cons_succ, total]
      omega

/-- A change of something all threads look at. -/
theorem total_le {w w' : α → Nat} {K : Nat} (h : ∀ a, w' a ≤ w a + K) (l : List α) : total w' l ≤ total w l + l.length * K := by
  induction l with
  | nil => simp [total]
  | cons x xs ih =>
    have := h x
    simp only [total, List.length_cons, Nat.add_mul]
    omega

theorem total_map_le {w : α → Nat} {f : α → α} {K : Nat} (h : ∀ a, w (f a) ≤ w a + K) (l : List α) :
    total w (l.map f) ≤ total w l + l.length * K := by
  induction l with
  | nil => simp [total]
  | cons x xs ih =>
    have := h x
    simp only [total, List.map_cons, List.length_cons, Nat.add_mul]
    omega

theorem total_replicate {w : α → Nat} {a : α} (h : w a = 0) (n : Nat) : total w (List.replicate n a) = 0 := by
  induction n with
  | zero => rfl
  | succ n ih => simp only [List.replicate_succ, total, h, ih]

theorem le_total {w : α → Nat} {l : List α} {i : Nat} {a : α} (h : l[i]? = some a) : w a ≤ total w l := by
  induction l generalizing i with
  | nil => simp at h
  | cons x xs ih =>
    cases i with
    | zero =>
      simp only [List.getElem?_cons_zero, Option.some.injEq] at h
      subst h
      simp only [total]
      omega
    | succ i =>
      simp only [List.getElem?_cons_succ] at h
      have := ih h
      simp only [total]
      omega

end Verif.Spec.Effort
