import Verif.Base.LTS

/-!
# Numbered work items

The models number what the users' code does.  That a thread knows an item says something only if no two items have the same number.
-/

namespace Verif

variable {σ ι ε : Type}

/-- A step numbers at most one item, with the next number, and then goes on to the following one. -/
def Numbers (work : ε → Option (Nat × Nat)) (fresh : σ → Nat) (s : σ) (es : List ε) (s' : σ) : Prop :=
  (es.filterMap work = [] ∧ fresh s' = fresh s) ∨ ∃ t, es.filterMap work = [(t, fresh s)] ∧ fresh s' = fresh s + 1

theorem numbered {step : StepFn σ ι ε} {work : ε → Option (Nat × Nat)} {fresh : σ → Nat} {s₀ : σ} (h0 : fresh s₀ = 0)
    (hs : ∀ s l s' es, step s l = some (s', es) → Numbers work fresh s es s') {tr : List ε} {s : σ} (h : Exec step s₀ tr s) :
    (tr.filterMap work).map Prod.snd = List.range (fresh s) := by
  refine Exec.invariant (fun tr s => (tr.filterMap work).map Prod.snd = List.range (fresh s)) ?_ ?_ h
  · simp [h0]
  · intro tr s l s' es ih h
    rcases hs s l s' es h with ⟨h1, h2⟩ | ⟨t, h1, h2⟩
    · rw [List.filterMap_append, h1, h2, List.append_nil, ih]
    · rw [List.filterMap_append, h1, h2, List.map_append, ih, List.range_succ]; rfl

theorem numbered_nodup {step : StepFn σ ι ε} {work : ε → Option (Nat × Nat)} {fresh : σ → Nat} {s₀ : σ} (h0 : fresh s₀ = 0)
    (hs : ∀ s l s' es, step s l = some (s', es) → Numbers work fresh s es s') {tr : List ε} {s : σ} (h : Exec step s₀ tr s) :
    ((tr.filterMap work).map Prod.snd).Nodup := by
  rw [numbered h0 hs h]; exact List.nodup_range

end Verif
