import Verif.Props.WinCondVar

/-!
# The Windows condition variable: property C97

A waiter that times out while it is being notified leaves a unit behind in the semaphore of its node.  Such units add up until
the semaphore is full and `ReleaseSemaphore` fails, which the code does not notice.
-/

namespace Verif.WinCv

/-- **C97.**  The count of a semaphore never exceeds the maximum it was created with. -/
theorem C97_semaphore_limit {n : Nat} {tr : List Ev} {s : St} (h : Exec step (init n) tr s) :
    ∀ x ∈ s.nodes, x.tok ≤ 2147483647 := by
  refine h.invariant' (fun s => ∀ x ∈ s.nodes, x.tok ≤ 2147483647) (by simp [init]) (fun s l s' es hi hs => ?_)
  obtain ⟨t, a⟩ := l
  have keep : ∀ {q : Nat} {x y : Node}, s.nodes[q]? = some x → y.tok ≤ x.tok → ∀ z ∈ s.nodes.set q y, z.tok ≤ 2147483647 := by
    intro q x y hx hy z hz
    rcases List.mem_or_eq_of_mem_set hz with hz | rfl
    · exact hi z hz
    · exact Nat.le_trans hy (hi x (List.mem_of_getElem? hx))
  have wake : ∀ {q : Nat} {x : Node} {m c : Nat}, s.nodes[q]? = some x → ∀ z ∈ s.nodes.set q (x.wake m c), z.tok ≤ 2147483647 := by
    intro q x m c hx z hz
    rcases List.mem_or_eq_of_mem_set hz with hz | rfl
    · exact hi z hz
    · have h1 := release_cases x.tok m
      have h2 := hi x (List.mem_of_getElem? hx)
      simp only [Node.wake]; omega
  cases step_sound hs with
  | first h hn => intro x hx; simp only [List.mem_singleton] at hx; subst hx; exact Nat.zero_le _
  | join h hx hn hw => exact keep hx (Nat.le_refl _)
  | create h hx =>
    intro z hz
    rcases List.mem_append.mp hz with hz | hz
    · exact keep hx (by exact Nat.le_refl _) z hz
    · simp only [List.mem_singleton] at hz; subst hz; exact Nat.zero_le _
  | token h hx ht => exact keep hx (Nat.sub_le _ _)
  | leave h hl hx hn => exact keep hx (Nat.le_refl _)
  | leave0 h hl hx hn => exact keep hx (Nat.le_refl _)
  | wakeLast h hx hm hc => exact wake hx
  | wakeNext h hx hm hc => exact wake hx
  | _ => exact hi

/-- The thread took a unit of the semaphore of node `q` and did not leave the wait yet. -/
def PC.took (q : Nat) : PC → Bool
  | .gotTok _ p | .inTok _ p => p == q
  | _ => false

/-- **C97.**  Whether or not the calls of `ReleaseSemaphore` succeeded, the semaphore of every node holds a unit for each
notification that is outstanding there and whose unit is not on its way (with at most 2^30 threads). -/
theorem C97_units_available {n : Nat} {tr : List Ev} {s : St} (h : Exec step (init n) tr s) (hn : n ≤ 1073741824)
    {q : Nat} {x : Node} (hx : s.nodes[q]? = some x) : x.units.length ≤ x.tok + s.ths.countP (PC.took q) := by
  have hc := (counts_exec h).2
  have h1 := hc.tok (by rw [threads_exec h]; exact hn) q x hx
  have h2 : PC.flight q = PC.took q := by funext pc; cases pc <;> rfl
  rw [(hc.ok q x hx).len, ← h2]
  exact h1

/-! ## A full semaphore -/

/-- Two idle threads, one node with `k` units left in its semaphore. -/
def rested (k c : Nat) : St := ⟨[⟨0, 0, k, 0, []⟩], 0, 0, 0, none, none, c, [.idle, .idle]⟩

/-- One wait with a timeout creates the node. -/
def firstRound : List (Nat × Act) :=
  [(0, .userLock), (0, .callWait .rel), (0, .go), (0, .go), (0, .go), (0, .go), (0, .timeout), (0, .go), (0, .go), (0, .go),
   (0, .userUnlock)]

/-- Thread 0 starts to wait. -/
def startWait (k : Kind) : List (Nat × Act) :=
  [(0, .userLock), (0, .callWait k), (0, .go), (0, .go), (0, .go), (0, .go), (0, .go)]

/-- Thread 1 notifies it ... -/
def notifyOne : List (Nat × Act) := [(1, .callNotify false), (1, .go), (1, .go), (1, .go), (1, .go), (1, .go)]

/-- ... but the wait just timed out. -/
def timesOut : List (Nat × Act) := [(0, .timeout), (0, .go), (0, .go), (0, .go), (0, .userUnlock)]

theorem fillOne (k c : Nat) : ∃ es, runFrom step (rested k c) (startWait .rel ++ notifyOne ++ timesOut) =
    some (rested (release k 1) (c + 1), es) := by
  refine ⟨[.called 0 .rel, .registered 0, .unlocked 0, .notify 1 false, .decided 1 false 1, .issued 1 1, .notified 1,
    .took 0 (c + 1), .ret 0 .noTimeout], ?_⟩
  simp only [startWait, notifyOne, timesOut, rested, List.cons_append, List.nil_append, runFrom, step, List.getElem?_cons_zero,
    List.set_cons_zero, if_true]
  simp [longMax, Node.leave, Kind.timed]

theorem fill (k : Nat) (hk : k ≤ 2147483647) : ∃ tr c, Exec step (init 2) tr (rested k c) := by
  induction k with
  | zero =>
    obtain ⟨es, h⟩ : ∃ es, runFrom step (init 2) firstRound = some (rested 0 0, es) := ⟨_, rfl⟩
    exact ⟨_, 0, exec_of_run h⟩
  | succ k ih =>
    obtain ⟨tr, c, h⟩ := ih (by omega)
    obtain ⟨es, h1⟩ := fillOne k c
    rw [show release k 1 = k + 1 by have := release_cases k 1; omega] at h1
    exact ⟨_, _, h.trans (exec_of_run h1)⟩

/-- **C97.**  The failure is reachable with two threads: a notification finds the semaphore full, `ReleaseSemaphore` leaves it as
it is, and the waiter is woken nevertheless. -/
theorem C97_release_can_fail : ∃ tr s s' s'' es es', Exec step (init 2) tr s ∧ s.ths[1]? = some (.waking 1) ∧
    step s (1, .go) = some (s', es) ∧ Ev.issued 1 1 ∈ es ∧
    (s.nodes.map Node.tok = [2147483647] ∧ s'.nodes.map Node.tok = [2147483647]) ∧
    runFrom step s' [(1, .go), (0, .go), (0, .go), (0, .go), (0, .go)] = some (s'', es') ∧ Ev.ret 0 .noTimeout ∈ es' := by
  obtain ⟨tr, c, h⟩ := fill 2147483647 (Nat.le_refl _)
  generalize hk : 2147483647 = k at h ⊢
  obtain ⟨es, h1⟩ : ∃ es, runFrom step (rested k c) (startWait .wait ++ [(1, .callNotify false), (1, .go), (1, .go), (1, .go)]) =
      some (⟨[⟨1, 0, k, 0, []⟩], 0, 0, 0, some 1, none, c + 1, [.blocked .wait 0, .waking 1]⟩, es) := ⟨_, rfl⟩
  have hr : release k 1 = k := by have := release_cases k 1; omega
  have h2 : step ⟨[⟨1, 0, k, 0, []⟩], 0, 0, 0, some 1, none, c + 1, [.blocked .wait 0, .waking 1]⟩ (1, .go) =
      some (⟨[⟨1, 1, release k 1, 0, [c + 1]⟩], 0, 0, 0, some 1, none, c + 1, [.blocked .wait 0, .nExit]⟩, [.issued 1 1]) := rfl
  obtain ⟨j, rfl⟩ : ∃ j, k = j + 1 := ⟨k - 1, by omega⟩
  rw [hr] at h2
  exact ⟨_, _, _, _, _, _, h.trans (exec_of_run h1), rfl, h2, by decide, ⟨rfl, rfl⟩, rfl, by simp⟩

/-- **C97.**  The units left behind are used up by later waits: nobody waits, all notifications are consumed, and yet the next wait
is woken by the operating system `k` times for nothing, for any `k` up to the limit, before it blocks. -/
theorem C97_stale_wakeups (k : Nat) (hk : k ≤ 2147483647) : ∃ tr s s', Exec step (init 2) tr s ∧
    waiting s = 0 ∧ allGranted tr = allConsumed tr ∧ s.ths = [.idle, .idle] ∧
    runFrom step s (startWait .wait ++ List.replicate (3 * k) (0, .go)) =
      some (s', [.called 0 .wait, .registered 0, .unlocked 0]) ∧
    s'.ths = [.blocked .wait 0, .idle] ∧ step s' (0, .go) = none := by
  obtain ⟨tr, c, h⟩ := fill k hk
  have hw : waiting (rested k c) = 0 := rfl
  have hbusy : ∀ k, runFrom step ⟨[⟨1, 0, k, 0, []⟩], 0, 0, 1, none, none, c, [.blocked .wait 0, .idle]⟩
      (List.replicate (3 * k) (0, .go)) =
      some (⟨[⟨1, 0, 0, 0, []⟩], 0, 0, 1, none, none, c, [.blocked .wait 0, .idle]⟩, []) := by
    intro k
    induction k with
    | zero => rfl
    | succ k ih =>
      show runFrom step _ ((0, .go) :: (0, .go) :: (0, .go) :: List.replicate (3 * k) (0, .go)) = _
      simp only [runFrom, step, List.getElem?_cons_zero, Nat.zero_lt_succ, if_true, List.set_cons_zero, Nat.add_sub_cancel,
        Nat.lt_irrefl, if_false, ih, List.append_nil]
  refine ⟨tr, _, ⟨[⟨1, 0, 0, 0, []⟩], 0, 0, 1, none, none, c, [.blocked .wait 0, .idle]⟩, h, rfl, ?_, rfl, ?_, rfl, rfl⟩
  · have := C34_total_count h
    omega
  · have := hbusy k
    simp only [startWait, rested, List.cons_append, List.nil_append, runFrom, step, List.getElem?_cons_zero, if_true,
      List.set_cons_zero] at this ⊢
    simp [this, longMax]

/-- A concrete case: three units left, the next wait passes through nine more actions. -/
example : ∃ tr s s' es, Exec step (init 2) tr s ∧ s.nodes.map Node.tok = [3] ∧ waiting s = 0 ∧
    runFrom step s (startWait .wait ++ List.replicate 9 (0, .go)) = some (s', es) ∧ Ev.ret 0 .noTimeout ∉ es := by
  obtain ⟨tr, c, h⟩ := fill 3 (by decide)
  exact ⟨_, _, _, _, h, rfl, rfl, rfl, by simp⟩

end Verif.WinCv
