import Verif.Props.WinCondVar
import Verif.Base.Run
import Verif.Base.Count

/-! C37, C38: what the result of a wait of the Windows condition variables means. -/

namespace Verif.WinCv

/-- Why a wait of kind `k` by thread `t` may end with a given result, given the labels and the events since the call. -/
def Justified (t : Nat) (k : Kind) (ls : List (Nat × Act)) (es : List Ev) : Result → Prop
  | .noTimeout => ∃ c, Ev.took t c ∈ es
  | .timeout => k ≠ .wait ∧ (t, Act.timeout) ∈ ls
  | .threw => (t, Act.fail) ∈ ls

theorem Justified.mono {t : Nat} {k : Kind} {ls ls' : List (Nat × Act)} {es es' : List Ev} {r : Result}
    (h : Justified t k ls es r) : Justified t k (ls ++ ls') (es ++ es') r := by
  cases r <;> simp only [Justified, List.mem_append] at h ⊢
  · obtain ⟨c, h⟩ := h
    exact ⟨c, Or.inl h⟩
  · exact ⟨h.1, Or.inl h.2⟩
  · exact Or.inl h

/-- What is known of a thread inside its call. -/
def Track (t : Nat) (k : Kind) (ls : List (Nat × Act)) (es : List Ev) : PC → Prop
  | .wTimer => k = .abs
  | .wEnter k' | .wInit k' | .wLoop k' _ | .wNew k' _ | .wExit k' _ | .wUnlock k' _ | .blocked k' _ | .gotTok k' _
  | .inTok k' _ => k' = k
  | .wAbort | .failed _ | .inFailed _ => (t, Act.fail) ∈ ls
  | .expired _ | .inExpired _ => k ≠ .wait ∧ (t, Act.timeout) ∈ ls
  | .relock r => Justified t k ls es r
  | .idle | .nLoad _ | .nEnter _ | .nCheck _ | .waking _ | .nExit => False

theorem Track.mono {t : Nat} {k : Kind} {ls ls' : List (Nat × Act)} {es es' : List Ev} {pc : PC}
    (h : Track t k ls es pc) : Track t k (ls ++ ls') (es ++ es') pc := by
  cases pc <;> simp only [Track] at h ⊢
  all_goals first
    | exact h
    | exact h.mono
    | exact List.mem_append_left _ h
    | exact ⟨h.1, List.mem_append_left _ h.2⟩

theorem track_step {t : Nat} {k : Kind} {ls : List (Nat × Act)} {es : List Ev} {s s' : St} {l : Nat × Act}
    {es' : List Ev} (hT : ∃ pc, s.ths[t]? = some pc ∧ Track t k ls es pc) (hs : step s l = some (s', es')) :
    (∀ r, Ev.ret t r ∈ es' → Justified t k (ls ++ [l]) (es ++ es') r) ∧
      ((∀ r, Ev.ret t r ∉ es') → ∃ pc, s'.ths[t]? = some pc ∧ Track t k (ls ++ [l]) (es ++ es') pc) := by
  obtain ⟨pc, ht, hT⟩ := hT
  obtain ⟨u, a⟩ := l
  by_cases hu : u = t
  · subst hu
    have mono := @Justified.mono u k ls [(u, a)] es es'
    simp only [step, ht] at hs
    split at hs
    all_goals (repeat' split at hs)
    all_goals first
      | contradiction
      | skip
    all_goals
      simp only [Option.some.injEq, Prod.mk.injEq] at hs
      obtain ⟨rfl, rfl⟩ := hs
    all_goals simp only [Track] at hT
    all_goals refine ⟨?_, fun hno => ?_⟩
    all_goals first
      | (simp; done)
      | (exfalso; simp at hno; done)
      | (refine ⟨_, get_set_self ht, ?_⟩
         first
           | (simp only [Track]; first | exact hT | exact mono hT | exact List.mem_append_left _ hT | exact ⟨hT.1, List.mem_append_left _ hT.2⟩)
           | (simp [Track, Justified, hT]; done)
           | skip)
      | (intro r hr
         simp only [List.mem_cons, List.not_mem_nil, or_false, Ev.ret.injEq, true_and] at hr
         subst hr
         first | exact mono hT | (simp [Justified]; done))
      | skip
    · exact ⟨_, ht, hT⟩
    · next h =>
      subst hT
      refine ⟨?_, List.mem_append_right _ List.mem_cons_self⟩
      intro hk
      rw [hk] at h
      cases h
  · have key : (∀ r, Ev.ret t r ∉ es') ∧ s'.ths[t]? = some pc := by
      clear hT
      cases hpu : s.ths[u]? with
      | none => simp [step, hpu] at hs
      | some pu =>
      simp only [step, hpu] at hs
      split at hs
      all_goals (repeat' split at hs)
      all_goals first
        | contradiction
        | skip
      all_goals
        simp only [Option.some.injEq, Prod.mk.injEq] at hs
        obtain ⟨rfl, rfl⟩ := hs
      all_goals refine ⟨by simp [Ne.symm hu], ?_⟩
      all_goals first
        | exact ht
        | (simp only; rw [get_set_ne hu]; exact ht)
    exact ⟨fun r hr => absurd hr (key.1 r), fun _ => ⟨_, key.2, hT.mono⟩⟩

/-- **C37, C38.**  The result of a wait.  Thread `t` calls a wait of kind `k`; `ls` are the labels and `es` the events from
then until the step that ends the call, with result `r`.  A wait reports success only if it took a notification, a time-out
only if it has a time limit and that has expired, and it throws only if an operation failed. -/
theorem C37_wait_results {s s₁ s₂ s₃ : St} {t : Nat} {k : Kind} {ls : List (Nat × Act)} {l : Nat × Act}
    {es₁ es es₃ : List Ev} {r : Result} (hc : step s (t, .callWait k) = some (s₁, es₁))
    (hr : runFrom step s₁ ls = some (s₂, es)) (hno : ∀ r', Ev.ret t r' ∉ es) (hs : step s₂ l = some (s₃, es₃))
    (he : Ev.ret t r ∈ es₃) :
    (r = .noTimeout → ∃ c, Ev.took t c ∈ es ++ es₃) ∧
    (r = .timeout → k ≠ .wait ∧ (t, Act.timeout) ∈ ls ++ [l]) ∧
    (r = .threw → (t, Act.fail) ∈ ls ++ [l]) := by
  have h₁ : ∃ pc, s₁.ths[t]? = some pc ∧ Track t k [] [] pc := by
    simp only [step] at hc
    split at hc
    · cases hc
    next pc hpc =>
    cases pc <;> simp only [reduceCtorEq] at hc
    split at hc
    · simp only [Option.some.injEq, Prod.mk.injEq] at hc
      obtain ⟨rfl, rfl⟩ := hc
      refine ⟨_, get_set_self hpc, ?_⟩
      cases k <;> rfl
    · cases hc
  have h₂ := runFrom_invariant (step := step)
    (fun ls es s => (∀ r', Ev.ret t r' ∉ es) → ∃ pc, s.ths[t]? = some pc ∧ Track t k ls es pc) (fun _ => h₁)
    (fun ls es s l s' es' ih hs hno => (track_step (ih fun r' h => hno r' (List.mem_append_left _ h)) hs).2
      fun r' h => hno r' (List.mem_append_right _ h)) hr hno
  have J := (track_step h₂ hs).1 r he
  refine ⟨?_, ?_, ?_⟩ <;> (rintro rfl; exact J)

/-- A wait with a time limit that expires. -/
example : ∃ s s₁ s₂ s₃ es₁ es es₃ ls, Reachable step (init 2) s ∧ step s (0, .callWait .rel) = some (s₁, es₁) ∧
    runFrom step s₁ ls = some (s₂, es) ∧ (∀ r', Ev.ret 0 r' ∉ es) ∧ step s₂ (0, .go) = some (s₃, es₃) ∧
    Ev.ret 0 .timeout ∈ es₃ :=
  ⟨_, _, _, _, _, _, _, [(0, .go), (0, .go), (0, .go), (0, .go), (1, .callNotify false), (0, .timeout), (0, .go), (0, .go)],
    ⟨_, exec_of_run (ls := [(0, .userLock)]) rfl⟩, rfl, rfl, by simp, rfl, by simp⟩

end Verif.WinCv
