import Verif.Spec.Alone

/-!
# Lemmas for C111
-/

namespace Verif.Spec.Alone

variable {σ α ε : Type} {step : StepFn σ (Nat × α) ε} {fair : σ → α → Prop} {t : Nat} {goal : σ → List ε → Prop}

theorem Within.mono {k m : Nat} {s : σ} (h : Within step fair t goal k s) (hk : k ≤ m) : Within step fair t goal m s := by
  induction k generalizing m s with
  | zero => exact h.elim
  | succ k ih =>
    obtain ⟨m, rfl⟩ : ∃ m', m = m' + 1 := ⟨m - 1, by omega⟩
    refine ⟨h.1, fun a s' es hf hs => ?_⟩
    rcases h.2 a s' es hf hs with h' | h'
    · exact .inl h'
    · exact .inr (ih h' (by omega))

/-- One step, all choices. -/
theorem Within.next {k : Nat} {s : σ} (a : α) (r : σ × List ε) (hf : fair s a) (hs : step s (t, a) = some r)
    (h : ∀ a s' es, fair s a → step s (t, a) = some (s', es) → goal s' es ∨ Within step fair t goal k s') :
    Within step fair t goal (k + 1) s := ⟨⟨a, r, hf, hs⟩, h⟩

/-- There is a sequence of at most `k` steps of the thread that reaches the goal in its last one. -/
theorem Within.run {k : Nat} {s : σ} (h : Within step fair t goal k s) :
    ∃ (ls : List α) (a : α) (s₁ s₂ : σ) (es tr : List ε), ls.length < k ∧ runFrom step s (ls.map (t, ·)) = some (s₁, tr) ∧ step s₁ (t, a) = some (s₂, es) ∧ goal s₂ es := by
  induction k generalizing s with
  | zero => exact h.elim
  | succ k ih =>
    obtain ⟨⟨a, ⟨s', es⟩, hf, hs⟩, hall⟩ := h
    rcases hall a s' es hf hs with h' | h'
    · exact ⟨[], a, s, s', es, [], by simp, rfl, hs, h'⟩
    · obtain ⟨ls, b, s₁, s₂, es', tr, hl, hr, hs', hg⟩ := ih h'
      exact ⟨a :: ls, b, s₁, s₂, es', es ++ tr, by simp; omega, by simp [runFrom, hs, hr], hs', hg⟩

/-- A quantity that every step before the goal decreases. -/
theorem within_of_measure (I : σ → Prop) (μ : σ → Nat) (hp : ∀ s, I s → ∃ a r, fair s a ∧ step s (t, a) = some r)
    (hd : ∀ s a s' es, I s → fair s a → step s (t, a) = some (s', es) → goal s' es ∨ (I s' ∧ μ s' < μ s)) :
    ∀ (k : Nat) (s : σ), I s → μ s < k → Within step fair t goal k s := by
  intro k
  induction k with
  | zero => intro s _ h; omega
  | succ k ih =>
    intro s hI hk
    refine ⟨hp s hI, fun a s' es hf hs => ?_⟩
    rcases hd s a s' es hI hf hs with h | ⟨h1, h2⟩
    · exact .inl h
    · exact .inr (ih s' h1 (by omega))

theorem get_set {β : Type} {l : List β} {t : Nat} {x y : β} (h : l[t]? = some x) : (l.set t y)[t]? = some y :=
  List.getElem?_set_self (List.getElem?_eq_some_iff.mp h).1

end Verif.Spec.Alone
