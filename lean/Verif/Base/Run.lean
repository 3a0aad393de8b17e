import Verif.Base.LTS

/-! Invariants of runs that mention the labels and the events so far. -/

namespace Verif

variable {σ ι ε : Type}

theorem runFrom_invariant {step : StepFn σ ι ε} {s : σ} (I : List ι → List ε → σ → Prop) (h0 : I [] [] s)
    (hstep : ∀ ls es s l s' es', I ls es s → step s l = some (s', es') → I (ls ++ [l]) (es ++ es') s')
    {ls : List ι} {s' : σ} {es : List ε} (h : runFrom step s ls = some (s', es)) : I ls es s' := by
  have gen : ∀ (ls : List ι) (s : σ) (ls₀ : List ι) (es₀ es : List ε), I ls₀ es₀ s → runFrom step s ls = some (s', es) →
      I (ls₀ ++ ls) (es₀ ++ es) s' := by
    intro ls
    induction ls with
    | nil =>
      intro s ls₀ es₀ es h0 h
      simp only [runFrom, Option.some.injEq, Prod.mk.injEq] at h
      obtain ⟨rfl, rfl⟩ := h
      simpa using h0
    | cons l ls ih =>
      intro s ls₀ es₀ es h0 h
      simp only [runFrom] at h
      split at h
      · cases h
      · next s1 es1 hs =>
        split at h
        · cases h
        · next s2 es2 hr =>
          simp only [Option.some.injEq, Prod.mk.injEq] at h
          obtain ⟨rfl, rfl⟩ := h
          have := ih s1 (ls₀ ++ [l]) (es₀ ++ es1) es2 (hstep _ _ _ _ _ _ h0 hs) hr
          simpa using this
  simpa using gen ls s [] [] es h0 h

end Verif
