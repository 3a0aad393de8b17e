import Verif.Proof.WinCondVarDtor

/-! C82: when the Windows condition variable may be destroyed; C83: what its destructor does. -/

namespace Verif.WinCv

/-- Thread 0 waits, thread 1 calls `notify_all`. -/
def notifiedWaiter : List (Nat × Act) :=
  [(0, .userLock), (0, .callWait .wait), (0, .go), (0, .go), (0, .go), (0, .go), (1, .callNotify true), (1, .go), (1, .go),
   (1, .go), (1, .go), (1, .go)]

/-- **C82**, refuted: the only waiting thread has been notified, `notify_all` has returned, and the assertion of the destructor
(line 152) holds; but the waiting thread goes on to take from the semaphore, lock the internal mutex and write to the counters. -/
theorem C82_refuted : ∃ tr s s' s'', Exec step (init 2) tr s ∧
    tr = [.called 0 .wait, .registered 0, .unlocked 0, .notify 1 true, .decided 1 true 1, .issued 1 1, .notified 1] ∧
    s.total = 0 ∧ s.ths[1]? = some .idle ∧
    runFrom step s [(0, .go), (0, .go)] = some (s', []) ∧ s'.nodes ≠ s.nodes ∧ s'.owner = some 0 ∧
    step s' (0, .go) = some (s'', [.took 0 1]) ∧ s''.nodes ≠ s'.nodes :=
  ⟨_, _, _, _, exec_of_run (ls := notifiedWaiter) rfl, rfl, rfl, rfl, rfl, by decide, rfl, rfl, by decide⟩

/-- Outside of all functions, or in a wait that only has to lock the user's lock again (lines 118-122). -/
def PC.done : PC → Bool
  | .idle | .relock _ => true
  | _ => false

/-- **C82**, what holds: when every call has returned or has only to lock the user's lock again, the assertion of the
destructor holds, no waiter is registered anywhere, the internal mutex is free, and what the remaining calls do does not concern the
condition variable.  Missing: notified threads that have not got that far. -/
theorem C82_partial {n : Nat} {tr : List Ev} {s : St} (h : Exec step (init n) tr s)
    (hd : ∀ (t : Nat) pc, s.ths[t]? = some pc → pc.done = true) :
    s.total = 0 ∧ s.owner = none ∧ (∀ x ∈ s.nodes, x.w = 0 ∧ x.n = 0) ∧
    ∀ t a s' es, step s (t, a) = some (s', es) → (a = .go ∨ a = .timeout ∨ a = .fail) →
      s'.nodes = s.nodes ∧ s'.notify = s.notify ∧ s'.waitSt = s.waitSt ∧ s'.total = s.total ∧ s'.owner = s.owner ∧
      ∃ r, es = [.ret t r] := by
  obtain ⟨l, c⟩ := counts_exec h
  have hw : ∀ (q : Nat) (x : Node), s.nodes[q]? = some x → x.w = 0 ∧ x.n = 0 := by
    intro q x hx
    have h1 := c.reg q
    have h2 : s.ths.countP (PC.reg q) = 0 := by
      apply countP_eq_zero_of_forall
      intro i a ha
      have := hd i a ha
      cases a <;> first | rfl | cases this
    have h3 := (c.ok q x hx).le
    simp only [wOf, hx, Option.elim_some, h2] at h1
    omega
  refine ⟨?_, ?_, ?_, ?_⟩
  · have h1 := c.total
    have h2 : ¬ 0 < sumOn Node.free s.nodes := by
      intro hp
      obtain ⟨q, x, hx, hf⟩ := sumOn_pos hp
      have := hw q x hx
      simp only [Node.free] at hf
      omega
    omega
  · cases ho : s.owner with
    | none => rfl
    | some t =>
      exfalso
      obtain ⟨pc, hpc, hin⟩ := l.owned t ho
      have := hd t pc hpc
      cases pc <;> first | cases hin; done | cases this
  · intro x hx
    obtain ⟨q, hq, rfl⟩ := List.getElem_of_mem hx
    exact hw q _ (List.getElem?_eq_getElem hq)
  · intro t a s' es hs ha
    unfold step at hs
    simp only at hs
    split at hs
    · cases hs
    next pc hpc =>
    have := hd t pc hpc
    cases pc <;> first | cases this; done | skip
    · rcases ha with rfl | rfl | rfl <;> cases hs
    · rcases ha with rfl | rfl | rfl
      · simp only at hs
        split at hs
        · cases hs; exact ⟨rfl, rfl, rfl, rfl, rfl, _, rfl⟩
        · cases hs
      · cases hs
      · cases hs

/-- A wait that was notified and has only to lock the user's lock again. -/
example : ∃ tr s, Exec step (init 2) tr s ∧ s.ths = [.relock .noTimeout, .idle] ∧ s.nodes ≠ [] :=
  ⟨_, _, exec_of_run (ls := notifiedWaiter ++ [(0, .go), (0, .go), (0, .go)]) rfl, rfl, by decide⟩

/-- **C83.**  In every reachable state the destructor ends after at most as many iterations as there are waiter states, having deleted
each waiter state exactly once and accessed none after its deletion. -/
theorem C83_freed_once {n : Nat} {tr : List Ev} {s : St} (h : Exec step (init n) tr s) :
    ∃ l, (∀ k, s.nodes.length ≤ k → destroy s k = .done l) ∧ l.Nodup ∧ ∀ q, q ∈ l ↔ ∃ x, s.nodes[q]? = some x := by
  obtain ⟨l, h1, h2, h3⟩ := destroy_ring (ring_exec h)
  refine ⟨l, h1, h2, fun q => (h3 q).trans ⟨fun hq => ⟨_, List.getElem?_eq_getElem hq⟩, fun ⟨x, hx⟩ => lt_of_get hx⟩⟩

/-- **C83.**  No waiter state is lost before the destruction. -/
theorem C83_kept {tr : List Ev} {s s' : St} (h : Exec step s tr s') : s.nodes.length ≤ s'.nodes.length := by
  induction h with
  | init => exact Nat.le_refl _
  | @snoc tr s₁ l s₂ es _ hs ih =>
    refine Nat.le_trans ih ?_
    obtain ⟨t, a⟩ := l
    cases step_sound hs with
    | first _ hn => simp [hn]
    | create => simp
    | _ => simp

/-- Three waiter states, the destructor starts with the second. -/
example : ∃ tr s, Exec step (init 4) tr s ∧ s.nodes.length = 3 ∧ destroy s 3 = .done [1, 2, 0] :=
  ⟨_, _, exec_of_run (ls := notifiedWaiter ++
    [(2, .userLock), (2, .callWait .rel), (2, .go), (2, .go), (2, .go), (2, .go), (2, .go), (2, .go), (1, .callNotify false), (1, .go), (1, .go),
     (1, .go), (1, .go), (1, .go), (1, .go), (3, .userLock), (3, .callWait .wait), (3, .go), (3, .go), (3, .go), (3, .go), (3, .go)]) rfl,
    rfl, by decide⟩

end Verif.WinCv
