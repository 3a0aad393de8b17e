/-!
# Labelled transition systems

A system is given by a (partial, computable) step function.  A label names the thread that moves and resolves all
non-determinism of the step.  A step may emit observable events (API calls and returns).
-/

namespace Verif

/-- One atomic step: `none` means the label is not enabled. -/
abbrev StepFn (σ ι ε : Type) := σ → ι → Option (σ × List ε)

variable {σ ι ε : Type}

/-- `Exec step s₀ tr s`: some finite sequence of steps leads from `s₀` to `s` emitting the trace `tr`. -/
inductive Exec (step : StepFn σ ι ε) (s₀ : σ) : List ε → σ → Prop
  | init : Exec step s₀ [] s₀
  | snoc {tr : List ε} {s s' : σ} {l : ι} {es : List ε} :
      Exec step s₀ tr s → step s l = some (s', es) → Exec step s₀ (tr ++ es) s'

/-- `s` is reachable from `s₀`. -/
def Reachable (step : StepFn σ ι ε) (s₀ s : σ) : Prop := ∃ tr, Exec step s₀ tr s

/-- Execute a list of labels. -/
def runFrom (step : StepFn σ ι ε) : σ → List ι → Option (σ × List ε)
  | s, [] => some (s, [])
  | s, l :: ls =>
    match step s l with
    | none => none
    | some (s', es) =>
      match runFrom step s' ls with
      | none => none
      | some (s'', es') => some (s'', es ++ es')

theorem Exec.trans {step : StepFn σ ι ε} {s₀ s₁ s₂ : σ} {t₁ t₂ : List ε}
    (h₁ : Exec step s₀ t₁ s₁) (h₂ : Exec step s₁ t₂ s₂) : Exec step s₀ (t₁ ++ t₂) s₂ := by
  induction h₂ with
  | init => simpa using h₁
  | snoc _ hs ih => rw [← List.append_assoc]; exact Exec.snoc ih hs

theorem Exec.single {step : StepFn σ ι ε} {s s' : σ} {l : ι} {es : List ε}
    (h : step s l = some (s', es)) : Exec step s es s' := by
  have := Exec.snoc (Exec.init (step := step) (s₀ := s)) h
  simpa using this

theorem exec_of_run {step : StepFn σ ι ε} {s : σ} {ls : List ι} {r : σ × List ε}
    (h : runFrom step s ls = some r) : Exec step s r.2 r.1 := by
  induction ls generalizing s r with
  | nil => simp only [runFrom, Option.some.injEq] at h; subst h; exact Exec.init
  | cons l ls ih =>
    simp only [runFrom] at h
    split at h
    · cases h
    · next s' es hs =>
      split at h
      · cases h
      · next s'' es' hr =>
        cases h
        exact (Exec.single hs).trans (ih hr)

/-- Invariants may mention the trace. -/
theorem Exec.invariant {step : StepFn σ ι ε} {s₀ : σ} (I : List ε → σ → Prop)
    (h0 : I [] s₀)
    (hstep : ∀ tr s l s' es, I tr s → step s l = some (s', es) → I (tr ++ es) s')
    {tr : List ε} {s : σ} (h : Exec step s₀ tr s) : I tr s := by
  induction h with
  | init => exact h0
  | snoc _ hs ih => exact hstep _ _ _ _ _ ih hs

theorem Exec.invariant' {step : StepFn σ ι ε} {s₀ : σ} (I : σ → Prop)
    (h0 : I s₀)
    (hstep : ∀ s l s' es, I s → step s l = some (s', es) → I s')
    {tr : List ε} {s : σ} (h : Exec step s₀ tr s) : I s :=
  Exec.invariant (fun _ s => I s) h0 (fun _ s l s' es => hstep s l s' es) h

theorem Reachable.invariant {step : StepFn σ ι ε} {s₀ : σ} (I : σ → Prop)
    (h0 : I s₀)
    (hstep : ∀ s l s' es, I s → step s l = some (s', es) → I s')
    {s : σ} (h : Reachable step s₀ s) : I s := by
  obtain ⟨tr, h⟩ := h
  exact h.invariant' I h0 hstep

theorem reachable_init {step : StepFn σ ι ε} {s₀ : σ} : Reachable step s₀ s₀ := ⟨[], Exec.init⟩

theorem Reachable.snoc {step : StepFn σ ι ε} {s₀ s s' : σ} {l : ι} {es : List ε}
    (h : Reachable step s₀ s) (hs : step s l = some (s', es)) : Reachable step s₀ s' := by
  obtain ⟨tr, h⟩ := h
  exact ⟨_, Exec.snoc h hs⟩

theorem Reachable.trans {step : StepFn σ ι ε} {s₀ s s' : σ}
    (h : Reachable step s₀ s) (h' : Reachable step s s') : Reachable step s₀ s' := by
  obtain ⟨tr, h⟩ := h
  obtain ⟨tr', h'⟩ := h'
  exact ⟨_, h.trans h'⟩

/-! ## Excluding traces of small systems

A certificate that a given trace is not a trace of a system: for each prefix a finite set of states closed under
silent steps that contains all states reachable by that prefix. -/

/-- `S` contains everything reachable from it by silent steps with labels in `L`. -/
def silentClosed [DecidableEq σ] (step : StepFn σ ι ε) (L : List ι) (S : List σ) : Bool :=
  S.all fun s => L.all fun l =>
    match step s l with
    | some (s', []) => S.contains s'
    | _ => true

/-- Every step from `S` emitting `e` ends in `S'`; no step emits two events. -/
def advances [DecidableEq σ] [DecidableEq ε] (step : StepFn σ ι ε) (L : List ι) (S : List σ) (e : ε) (S' : List σ) :
    Bool :=
  S.all fun s => L.all fun l =>
    match step s l with
    | some (s', [e']) => e' != e || S'.contains s'
    | some (_, _ :: _ :: _) => false
    | _ => true

/-- The certificate for a whole trace: one set per prefix. -/
def certifies [DecidableEq σ] [DecidableEq ε] (step : StepFn σ ι ε) (L : List ι) : List σ → List (ε × List σ) → Bool
  | S, [] => silentClosed step L S
  | S, (e, S') :: rest => silentClosed step L S && advances step L S e S' && certifies step L S' rest

/-- Executions stay within the certificate. -/
theorem certified_mem [DecidableEq σ] [DecidableEq ε] {step : StepFn σ ι ε} {L : List ι} {I : σ → Prop} {s₀ : σ}
    (hI0 : I s₀) (hI : ∀ s l s' es, I s → step s l = some (s', es) → I s')
    (hL : ∀ s l r, I s → step s l = some r → l ∈ L)
    (hone : ∀ s l s' es, step s l = some (s', es) → es.length ≤ 1)
    {S : List σ} (h0 : s₀ ∈ S) {c : List (ε × List σ)} (hc : certifies step L S c = true)
    {tr : List ε} {s : σ} (h : Exec step s₀ tr s) :
    ∀ k, tr = (c.take k).map Prod.fst → k ≤ c.length → s ∈ (S :: c.map Prod.snd).getD k [] := by
  have hcl : ∀ (c : List (ε × List σ)) (S : List σ), certifies step L S c = true → ∀ k, k ≤ c.length →
      silentClosed step L ((S :: c.map Prod.snd).getD k []) = true := by
    intro c
    induction c with
    | nil => intro S h k hk; cases k with
      | zero => simpa [certifies] using h
      | succ k => simp at hk
    | cons x c ih =>
      obtain ⟨e, S'⟩ := x
      intro S h k hk
      simp only [certifies, Bool.and_eq_true] at h
      cases k with
      | zero => simpa using h.1.1
      | succ k =>
        have := ih S' h.2 k (by simpa using hk)
        simpa using this
  have had : ∀ (c : List (ε × List σ)) (S : List σ), certifies step L S c = true → ∀ k e, (c.map Prod.fst)[k]? = some e →
      advances step L ((S :: c.map Prod.snd).getD k []) e ((S :: c.map Prod.snd).getD (k + 1) []) = true := by
    intro c
    induction c with
    | nil => intro S h k e hk; simp at hk
    | cons x c ih =>
      obtain ⟨e', S'⟩ := x
      intro S h k e hk
      simp only [certifies, Bool.and_eq_true] at h
      cases k with
      | zero =>
        simp only [List.map_cons, List.getElem?_cons_zero, Option.some.injEq] at hk
        subst hk
        simpa using h.1.2
      | succ k =>
        have := ih S' h.2 k e (by simpa using hk)
        simpa using this
  have hinv : I s := h.invariant' I hI0 hI
  clear hinv
  induction h with
  | init =>
    intro k hk hk'
    cases k with
    | zero => simpa using h0
    | succ k =>
      exfalso
      cases c with
      | nil => simp at hk'
      | cons x c => simp at hk
  | snoc hex hs ih =>
    rename_i tr s s' l es
    intro k hk hk'
    have hIs : I s := hex.invariant' I hI0 hI
    have hl := hL s l _ hIs hs
    have h1 := hone _ _ _ _ hs
    cases es with
    | nil =>
      have hm := ih k (by simpa using hk) hk'
      have hc' := hcl c S hc k hk'
      have := List.all_eq_true.mp hc' s hm
      have := List.all_eq_true.mp this l hl
      rw [hs] at this
      simpa using this
    | cons e es =>
      have hnil : es = [] := by cases es <;> simp_all
      subst hnil
      cases k with
      | zero => simp at hk
      | succ k =>
        have hlt : k < c.length := by omega
        have htake : (c.take (k + 1)).map Prod.fst = (c.take k).map Prod.fst ++ [(c[k]).1] := by
          rw [List.take_succ_eq_append_getElem hlt, List.map_append]; rfl
        rw [htake] at hk
        obtain ⟨h2, h3⟩ := List.append_inj' hk rfl
        simp only [List.cons.injEq, and_true] at h3
        have hm := ih k h2 (by omega)
        have ha := had c S hc k e (by simp [hlt, h3])
        have := List.all_eq_true.mp ha s hm
        have := List.all_eq_true.mp this l hl
        rw [hs] at this
        simpa using this

/-- A trace whose certificate ends in the empty set is impossible. -/
theorem not_exec_of_certificate [DecidableEq σ] [DecidableEq ε] {step : StepFn σ ι ε} {L : List ι} {I : σ → Prop}
    {s₀ : σ} (hI0 : I s₀) (hI : ∀ s l s' es, I s → step s l = some (s', es) → I s')
    (hL : ∀ s l r, I s → step s l = some r → l ∈ L)
    (hone : ∀ s l s' es, step s l = some (s', es) → es.length ≤ 1)
    {S : List σ} (h0 : s₀ ∈ S) {c : List (ε × List σ)} (hc : certifies step L S c = true)
    (hlast : (S :: c.map Prod.snd).getD c.length [] = []) :
    ¬ ∃ s, Exec step s₀ (c.map Prod.fst) s := by
  rintro ⟨s, h⟩
  have := certified_mem hI0 hI hL hone h0 hc h c.length (by simp) (Nat.le_refl _)
  rw [hlast] at this
  cases this

end Verif
