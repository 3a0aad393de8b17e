import Verif.Props.CvAny
import Verif.Base.Run
import Verif.Base.Count

/-! C40: what the result of a wait of the generic `condition_variable_any` means. -/

namespace Verif.CvAny

/-- Why a wait of kind `k` by thread `t` may end with a given result, given the labels and the events since the call. -/
def Justified (t : Nat) (k : Kind) (ls : List (Nat × Act)) (es : List Ev) : Res → Prop
  /- somebody's notification woke the thread, or the system woke it for no reason -/
  | .ok => (t, Act.spurious) ∈ ls ∨ ∃ u all ws, Ev.notified u all ws ∈ es ∧ t ∈ ws
  /- the sleep timed out, or the deadline of the user's clock was over before the first sleep -/
  | .timeout => (k = .timed ∧ (t, Act.timeout) ∈ ls) ∨ k = .clocked
  /- an operation failed -/
  | .threw | .relockThrew => (t, Act.fail) ∈ ls

theorem Justified.mono {t : Nat} {k : Kind} {ls ls' : List (Nat × Act)} {es es' : List Ev} {r : Res}
    (h : Justified t k ls es r) : Justified t k (ls ++ ls') (es ++ es') r := by
  cases r <;> simp only [Justified, List.mem_append] at h ⊢
  · rcases h with h | ⟨u, all, ws, h, hw⟩
    · exact Or.inl (Or.inl h)
    · exact Or.inr ⟨u, all, ws, Or.inl h, hw⟩
  · rcases h with ⟨h, h'⟩ | h
    · exact Or.inl ⟨h, Or.inl h'⟩
    · exact Or.inr h
  · exact Or.inl h
  · exact Or.inl h

/-- What is known of a thread inside its call. -/
def Track (t : Nat) (k : Kind) (ls : List (Nat × Act)) (es : List Ev) : PC → Prop
  | .wLock k' | .wRelease k' | .wBlock k' | .blocked k' => k' = k
  | .wake k' r => k' = k ∧ Justified t k ls es r
  | .wClock => k = .clocked
  | .wExit r | .wRelock r => Justified t k ls es r
  | .wUnwind => (t, Act.fail) ∈ ls
  | .dead => True
  | .idle | .nLock _ | .nSignal _ | .nUnlock => False

theorem Track.mono {t : Nat} {k : Kind} {ls ls' : List (Nat × Act)} {es es' : List Ev} {pc : PC}
    (h : Track t k ls es pc) : Track t k (ls ++ ls') (es ++ es') pc := by
  cases pc <;> simp only [Track] at h ⊢
  all_goals first
    | exact h
    | exact h.mono
    | exact ⟨h.1, h.2.mono⟩
    | exact List.mem_append_left _ h

theorem mem_sleepers {ths : List PC} {t : Nat} {k : Kind} (h : ths[t]? = some (.blocked k)) : t ∈ sleepers ths := by
  obtain ⟨hlt, _⟩ := List.getElem?_eq_some_iff.mp h
  simp only [sleepers, List.mem_filter, List.mem_range]
  exact ⟨hlt, by simp [h, PC.isBlocked]⟩

theorem track_step {t : Nat} {k : Kind} {ls : List (Nat × Act)} {es : List Ev} {s s' : St} {l : Nat × Act}
    {es' : List Ev} (hT : ∃ pc, s.ths[t]? = some pc ∧ Track t k ls es pc) (hs : step s l = some (s', es')) :
    (∀ r, Ev.ret t r ∈ es' → Justified t k (ls ++ [l]) (es ++ es') r) ∧
      ((∀ r, Ev.ret t r ∉ es') → ∃ pc, s'.ths[t]? = some pc ∧ Track t k (ls ++ [l]) (es ++ es') pc) := by
  obtain ⟨pc, ht, hT⟩ := hT
  obtain ⟨u, a⟩ := l
  by_cases hu : u = t
  · subst hu
    have mono := @Justified.mono u k ls [(u, a)] es es'
    simp only [step, ht] at hs
    split at hs
    all_goals (repeat' split at hs)
    all_goals first
      | contradiction
      | skip
    all_goals
      simp only [Option.some.injEq, Prod.mk.injEq] at hs
      obtain ⟨rfl, rfl⟩ := hs
    all_goals simp only [Track] at hT
    all_goals refine ⟨?_, fun hno => ?_⟩
    all_goals first
      | (simp; done)
      | (refine ⟨_, get_set_self ht, ?_⟩
         first
           | (simp only [Track]; first | exact hT | trivial | exact mono hT | exact ⟨hT.1, mono hT.2⟩ | exact mono hT.2)
           | (simp [Track, Justified, hT]; done)
           | skip)
      | (exfalso; simp at hno; done)
      | skip
    all_goals first
      | (intro r hr
         simp only [List.mem_cons, List.not_mem_nil, or_false, Ev.ret.injEq, true_and, reduceCtorEq, false_or] at hr
         subst hr
         first | exact mono hT | (simp [Justified]; done))
      | skip
    all_goals first
      | (exfalso; simp at hno; done)
      | (next h => subst hT; exact h)
      | (next h => exact hT.1 ▸ h.1)
  · have key : (∀ r, Ev.ret t r ∉ es') ∧ (s'.ths[t]? = some pc ∨
        ∃ k', pc = .blocked k' ∧ s'.ths[t]? = some (.wake k' .ok) ∧ ∃ u all ws, Ev.notified u all ws ∈ es' ∧ t ∈ ws) := by
      clear hT
      cases hpu : s.ths[u]? with
      | none => simp [step, hpu] at hs
      | some pu =>
      simp only [step, hpu] at hs
      split at hs
      all_goals (repeat' split at hs)
      all_goals first
        | contradiction
        | skip
      all_goals
        simp only [Option.some.injEq, Prod.mk.injEq] at hs
        obtain ⟨rfl, rfl⟩ := hs
      all_goals refine ⟨by simp [Ne.symm hu], ?_⟩
      all_goals first
        | exact Or.inl ht
        | (left; simp only; rw [get_set_ne hu]; exact ht)
        | skip
      · next v _ k' hv =>
        by_cases hvt : v = t
        · subst hvt
          rw [ht] at hv
          cases hv
          right
          refine ⟨_, rfl, ?_, u, false, [v], by simp, by simp⟩
          simp only
          rw [get_set_ne hu]
          exact get_set_self ht
        · left
          simp only
          rw [get_set_ne hu, get_set_ne hvt]
          exact ht
      · by_cases hb : ∃ k', pc = .blocked k'
        · obtain ⟨k', rfl⟩ := hb
          right
          refine ⟨_, rfl, ?_, u, true, sleepers s.ths, by simp, mem_sleepers ht⟩
          simp only
          rw [get_set_ne hu, List.getElem?_map, ht]
          rfl
        · left
          simp only
          rw [get_set_ne hu, List.getElem?_map, ht]
          cases pc <;> first | rfl | exact absurd ⟨_, rfl⟩ hb
    refine ⟨fun r hr => absurd hr (key.1 r), fun _ => ?_⟩
    rcases key.2 with h | ⟨k', rfl, h, v, all, ws, hv, hw⟩
    · exact ⟨_, h, hT.mono⟩
    · exact ⟨_, h, hT, Or.inr ⟨v, all, ws, List.mem_append_right _ hv, hw⟩⟩

/-- **C40.**  The result of a wait.  Thread `t` calls a wait of kind `k`; `ls` are the labels and `es` the events from then
until the step that ends the call, with result `r`.  A wait reports success only if a notification chose the thread or the
system woke it spuriously; it reports a time-out only if it has a time limit and, with a limit on the system's clock, the
sleep timed out; it throws only if an operation failed. -/
theorem C40_wait_results {s s₁ s₂ s₃ : St} {t : Nat} {k : Kind} {ls : List (Nat × Act)} {l : Nat × Act}
    {es₁ es es₃ : List Ev} {r : Res} (hc : step s (t, .wait k) = some (s₁, es₁)) (hr : runFrom step s₁ ls = some (s₂, es))
    (hno : ∀ r', Ev.ret t r' ∉ es) (hs : step s₂ l = some (s₃, es₃)) (he : Ev.ret t r ∈ es₃) :
    (r = .ok → (t, Act.spurious) ∈ ls ++ [l] ∨ ∃ u all ws, Ev.notified u all ws ∈ es ++ es₃ ∧ t ∈ ws) ∧
    (r = .timeout → (k = .timed ∧ (t, Act.timeout) ∈ ls ++ [l]) ∨ k = .clocked) ∧
    (r = .threw ∨ r = .relockThrew → (t, Act.fail) ∈ ls ++ [l]) := by
  have h₁ : ∃ pc, s₁.ths[t]? = some pc ∧ Track t k [] [] pc := by
    simp only [step] at hc
    split at hc
    · cases hc
    next pc hpc =>
    cases pc <;> simp only [reduceCtorEq] at hc
    split at hc
    · simp only [Option.some.injEq, Prod.mk.injEq] at hc
      obtain ⟨rfl, rfl⟩ := hc
      exact ⟨_, get_set_self hpc, rfl⟩
    · cases hc
  have h₂ := runFrom_invariant (step := step)
    (fun ls es s => (∀ r', Ev.ret t r' ∉ es) → ∃ pc, s.ths[t]? = some pc ∧ Track t k ls es pc) (fun _ => h₁)
    (fun ls es s l s' es' ih hs hno => (track_step (ih fun r' h => hno r' (List.mem_append_left _ h)) hs).2
      fun r' h => hno r' (List.mem_append_right _ h)) hr hno
  have J := (track_step h₂ hs).1 r he
  refine ⟨?_, ?_, ?_⟩
  · rintro rfl; exact J
  · rintro rfl; exact J
  · rintro (rfl | rfl) <;> exact J

/-- A timed wait that times out while another thread holds the internal mutex. -/
example : ∃ s s₁ s₂ s₃ es₁ es es₃ ls, Reachable step (init 2) s ∧ step s (0, .wait .timed) = some (s₁, es₁) ∧
    runFrom step s₁ ls = some (s₂, es) ∧ (∀ r', Ev.ret 0 r' ∉ es) ∧ step s₂ (0, .go) = some (s₃, es₃) ∧
    Ev.ret 0 .timeout ∈ es₃ :=
  ⟨_, _, _, _, _, _, _, [(0, .go), (0, .go), (0, .go), (1, .notify false), (0, .timeout), (1, .go), (1, .go), (1, .go),
    (0, .go), (0, .go)], ⟨_, exec_of_run (ls := [(0, .lockUser)]) rfl⟩, rfl, rfl, by simp, rfl, by simp⟩

/-- What is known of a thread inside `notify_one` or `notify_all`. -/
def NTrack (t : Nat) (all : Bool) (es : List Ev) : PC → Prop
  | .nLock b | .nSignal b => b = all
  | .nUnlock => ∃ ws, Ev.notified t all ws ∈ es
  | _ => False

theorem ntrack_step {t : Nat} {all : Bool} {es : List Ev} {s s' : St} {l : Nat × Act} {es' : List Ev}
    (hT : ∃ pc, s.ths[t]? = some pc ∧ NTrack t all es pc) (hs : step s l = some (s', es')) :
    (∀ ok, Ev.notifyRet t ok ∈ es' → (ok = true ∧ ∃ ws, Ev.notified t all ws ∈ es) ∨ (ok = false ∧ l = (t, .fail))) ∧
      ((∀ ok, Ev.notifyRet t ok ∉ es') → ∃ pc, s'.ths[t]? = some pc ∧ NTrack t all (es ++ es') pc) := by
  obtain ⟨pc, ht, hT⟩ := hT
  obtain ⟨u, a⟩ := l
  by_cases hu : u = t
  · subst hu
    simp only [step, ht] at hs
    split at hs
    all_goals (repeat' split at hs)
    all_goals first
      | contradiction
      | skip
    all_goals
      simp only [Option.some.injEq, Prod.mk.injEq] at hs
      obtain ⟨rfl, rfl⟩ := hs
    all_goals simp only [NTrack] at hT
    all_goals refine ⟨?_, fun hno => ?_⟩
    all_goals first
      | (simp; done)
      | (exfalso; simp at hno; done)
      | (refine ⟨_, get_set_self ht, ?_⟩
         first
           | exact hT
           | (subst hT; exact ⟨_, List.mem_append_right _ (List.mem_singleton.mpr rfl)⟩))
      | skip
    · next v _ k' hv =>
      have huv : v ≠ u := by rintro rfl; rw [ht] at hv; cases hv
      refine ⟨_, get_set_self (a := .nSignal false) ?_, ?_⟩
      · rw [get_set_ne huv]; exact ht
      · subst hT; exact ⟨_, List.mem_append_right _ (List.mem_singleton.mpr rfl)⟩
    · refine ⟨_, get_set_self (a := .nSignal true) ?_, ?_⟩
      · rw [List.getElem?_map, ht]; rfl
      · subst hT; exact ⟨_, List.mem_append_right _ (List.mem_singleton.mpr rfl)⟩
    · intro ok hok
      simp only [List.mem_singleton, Ev.notifyRet.injEq, true_and] at hok
      exact Or.inl ⟨hok, hT⟩
  · have key : (∀ ok, Ev.notifyRet t ok ∉ es') ∧ s'.ths[t]? = some pc := by
      cases hpu : s.ths[u]? with
      | none => simp [step, hpu] at hs
      | some pu =>
      simp only [step, hpu] at hs
      split at hs
      all_goals (repeat' split at hs)
      all_goals first
        | contradiction
        | skip
      all_goals
        simp only [Option.some.injEq, Prod.mk.injEq] at hs
        obtain ⟨rfl, rfl⟩ := hs
      all_goals refine ⟨by simp [Ne.symm hu], ?_⟩
      all_goals first
        | exact ht
        | (simp only; rw [get_set_ne hu]; exact ht)
        | skip
      · next v _ k' hv =>
        have hvt : v ≠ t := by rintro rfl; rw [ht] at hv; cases hv; exact hT
        simp only
        rw [get_set_ne hu, get_set_ne hvt]
        exact ht
      · simp only
        rw [get_set_ne hu, List.getElem?_map, ht]
        cases pc <;> first | rfl | exact hT.elim
    refine ⟨fun ok hok => absurd hok (key.1 ok), fun _ => ⟨pc, key.2, ?_⟩⟩
    cases pc <;> simp only [NTrack] at hT ⊢ <;> first | exact hT | (obtain ⟨ws, h⟩ := hT; exact ⟨ws, List.mem_append_left _ h⟩)

/-- **C39.**  The result of a notification.  Thread `t` calls `notify_one` or `notify_all`; `es` are the events from then until
the step that ends the call.  If the call returns normally, the notification it asked for has taken effect in between, on the
threads asleep at that time; it throws only if an operation failed in that very step. -/
theorem C39_notify_result {s s₁ s₂ s₃ : St} {t : Nat} {all ok : Bool} {ls : List (Nat × Act)} {l : Nat × Act}
    {es₁ es es₃ : List Ev} (hc : step s (t, .notify all) = some (s₁, es₁)) (hr : runFrom step s₁ ls = some (s₂, es))
    (hno : ∀ b, Ev.notifyRet t b ∉ es) (hs : step s₂ l = some (s₃, es₃)) (he : Ev.notifyRet t ok ∈ es₃) :
    (ok = true ∧ ∃ ws, Ev.notified t all ws ∈ es) ∨ (ok = false ∧ l = (t, .fail)) := by
  have h₁ : ∃ pc, s₁.ths[t]? = some pc ∧ NTrack t all [] pc := by
    simp only [step] at hc
    split at hc
    · cases hc
    next pc hpc =>
    cases pc <;> simp only [reduceCtorEq] at hc
    · simp only [Option.some.injEq, Prod.mk.injEq] at hc
      obtain ⟨rfl, rfl⟩ := hc
      exact ⟨_, get_set_self hpc, rfl⟩
  have h₂ := runFrom_invariant (step := step)
    (fun _ es s => (∀ b, Ev.notifyRet t b ∉ es) → ∃ pc, s.ths[t]? = some pc ∧ NTrack t all es pc) (fun _ => h₁)
    (fun _ es s l s' es' ih hs hno => (ntrack_step (ih fun r' h => hno r' (List.mem_append_left _ h)) hs).2
      fun r' h => hno r' (List.mem_append_right _ h)) hr hno
  exact (ntrack_step h₂ hs).1 ok he

/-- A thread notifies another one that sleeps; a third thread's notification is under way. -/
example : ∃ s s₁ s₂ s₃ es₁ es es₃ ls, Reachable step (init 3) s ∧ step s (1, .notify true) = some (s₁, es₁) ∧
    runFrom step s₁ ls = some (s₂, es) ∧ (∀ b, Ev.notifyRet 1 b ∉ es) ∧ step s₂ (1, .go) = some (s₃, es₃) ∧
    Ev.notifyRet 1 true ∈ es₃ ∧ Ev.notified 1 true [0] ∈ es :=
  ⟨_, _, _, _, _, _, _, [(1, .go), (2, .notify false), (1, .go)],
    ⟨_, exec_of_run (ls := [(0, .lockUser), (0, .wait .plain), (0, .go), (0, .go), (0, .go)]) rfl⟩, rfl, rfl, by simp, rfl,
    by simp, by decide⟩

end Verif.CvAny
