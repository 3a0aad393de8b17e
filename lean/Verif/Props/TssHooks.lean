import Verif.Proof.TssHooks

/-! C88: the hooks of thread-specific storage are called (Windows). -/

namespace Verif.TssHooks

open TssProcess (St Op Ev Item init step stepS given settled lostIn isSettled isLost quiet)

/-- **C88 (refuted).**  Built statically with a recent MinGW, whatever happens, `on_process_exit` is never called, and a thread that does not end before the process
does (the main thread) never calls `on_thread_exit`. -/
theorem C88_refuted_mingw {k : Kind} {ok : Bool} {hs : List Happening} {u : Nat} (h : threadsOnly hs) :
    (∀ t, calls (log .mingw k ok false (history hs u)) t .processExit = false) ∧
    (∀ m, .threadEnd m ∉ hs → calls (log .mingw k ok false (history hs u)) m .threadExit = false) ∧
    ¬ ProcessLeaves (log .mingw k ok false (history hs u)) := mingw_calls h

/-- **C88 (refuted).**  Built statically with an old MinGW, whatever happens, `on_thread_exit` is called by no thread but the one that ends the process. -/
theorem C88_refuted_mingw_old {k : Kind} {ok : Bool} {hs : List Happening} {u : Nat} (h : threadsOnly hs) :
    (∀ t, t ≠ u → calls (log .mingwOld k ok false (history hs u)) t .threadExit = false) ∧
    (∀ t, .threadEnd t ∈ hs → ¬ ThreadsLeave (log .mingwOld k ok false (history hs u))) := by
  rw [log_history h]
  refine ⟨fun t htu => ?_, fun t ht hl => ?_⟩
  · simp only [calls, List.any_eq_false, Bool.and_eq_true, decide_eq_true_eq, not_and, List.contains_iff_mem]
    intro e he ht
    rcases List.mem_cons.mp he with rfl | he
    · cases k <;> simp [notes, told, hooks, registers]
    · rcases List.mem_append.mp he with he | he
      · obtain ⟨a, ha, rfl⟩ := List.mem_map.mp he
        obtain ⟨v, rfl | rfl⟩ := h a ha <;> cases k <;> simp [notes, told, hooks, registers]
      · rw [List.mem_singleton.mp he] at ht
        exact absurd ht.symm htu
  · have := hl t _ (List.mem_cons_of_mem _ (List.mem_append_left _ (List.mem_map.mpr ⟨_, ht, rfl⟩)))
    cases k <;> simp [notes, told, hooks, registers] at this

/-- **C88 (refuted).**  With MSVC, if `atexit` fails (which is not checked), the thread that ends the process does not call `on_thread_exit`, but
`on_process_exit` is called. -/
theorem C88_refuted_atexit : ∃ hs : List Hook, (.finish 0, hs) ∈ log .msvc .exe false false (history [] 0) ∧ .processExit ∈ hs ∧ .threadExit ∉ hs :=
  ⟨[.processExit], by decide, by decide, by decide⟩

/-- **C88 (partial).**  Built as a DLL, or statically with MSVC (into a program or a DLL) and if `atexit` does not fail: each thread that ends calls `on_thread_exit`; the
thread that ends the process calls `on_thread_exit` and then `on_process_exit`; no `on_thread_exit` follows an `on_process_exit`, and no `on_process_enter` an
`on_thread_enter`. -/
theorem C88_contract_partial {b : Build} {k : Kind} {hs : List Happening} {u : Nat} (h : threadsOnly hs) (hb : b = .dll ∧ k = .dll ∨ b = .msvc) :
    Contract (log b k true false (history hs u)) := good h hb

/-- **C88 (partial).**  What is left with MinGW: with a recent one threads that end call `on_thread_exit`; with an old one the thread that ends the process does,
and then calls `on_process_exit`. -/
theorem C88_mingw_partial {k : Kind} {ok : Bool} {hs : List Happening} {u : Nat} (h : threadsOnly hs) :
    ThreadsLeave (log .mingw k ok false (history hs u)) ∧ ProcessLeaves (log .mingwOld k ok false (history hs u)) := by
  rw [log_history h, log_history h]
  refine ⟨fun t l hm => ?_, fun t l hm => ?_⟩
  · rcases List.mem_cons.mp hm with hm | hm
    · cases hm
    · rcases List.mem_append.mp hm with hm | hm
      · obtain ⟨a, ha, e⟩ := List.mem_map.mp hm
        cases e
        cases k <;> simp [notes, told, hooks, onTls]
      · cases List.mem_singleton.mp hm
  · rcases List.mem_cons.mp hm with hm | hm
    · cases hm
    · rcases List.mem_append.mp hm with hm | hm
      · obtain ⟨a, ha, e⟩ := List.mem_map.mp hm
        cases e
        obtain ⟨_, h | h⟩ := h _ ha <;> cases h
      · cases List.mem_singleton.mp hm
        cases k <;> exact ⟨[.threadExit], [], rfl, by simp⟩

/-- **C88.**  As long as `on_process_exit` has not been called, what a thread has handed over is dealt with (or lost) by that thread only, unless a
`thread_specific_ptr` is destroyed. -/
theorem C88_mine {tls : Bool} {n : Nat} {tr : List Ev} {s s' : St} (h : Exec (stepS tls) (init n) tr s) (hl : s.mgr = .live ∨ s.mgr = .absent) {t : Nat} {op : Op}
    (hop : op ≠ .processExit) (hd : ∀ k, op ≠ .deleteKey k) {es : List Ev} (hs : step tls s (t, op) = some (s', es)) {e : Ev} (he : e ∈ es) {x : Item}
    (hx : isSettled x e = true ∨ isLost x e = true) : Ev.gave t x ∈ tr :=
  (TssProcess.origin_step (TssProcess.inv_exec h).1 (TssProcess.origin_exec h (TssProcess.late_iff.mpr hl)) hop hs).2 hd e he x hx

/-- **C88.**  `on_process_exit` has nothing to do if no thread has a context any more: it returns at once, and everything handed over by any thread has been dealt
with (or lost) by then.  (So it is in the DLL, if all other threads have ended: `on_thread_exit` is called just before.) -/
theorem C88_last {tls : Bool} {n : Nat} {tr : List Ev} {s : St} (h : Exec (stepS tls) (init n) tr s) (hl : s.mgr = .live ∨ s.mgr = .absent)
    (hn : ∀ (t : Nat) (th : TssProcess.Thread), s.threads[t]? = some th → th.slot = none) {t : Nat} (ht : t < s.threads.length) :
    (∃ s', stepS tls s (t, .processExit) = some (s', [.processExited t])) ∧ ∀ x, given x tr = settled x tr + lostIn x tr := by
  obtain ⟨hI, _, hb⟩ := TssProcess.inv_exec h
  have hO := TssProcess.origin_exec h (TssProcess.late_iff.mpr hl)
  have hex : ∀ i, ¬ TssProcess.Exists s i := by
    rintro i ⟨c, hc⟩
    obtain ⟨u, v, h1, h2, _⟩ := hO.own i c hc
    rw [hn u v h1] at h2
    cases h2
  have hj : ∀ (u : Nat) (v : TssProcess.Thread), s.threads[u]? = some v → v.job = none := fun u v hu => by
    cases hv : v.job with
    | none => rfl
    | some j => exact absurd (hI.jobCtx u v j hu hv) (hex _)
  refine ⟨?_, fun x => ?_⟩
  · have hth := List.getElem?_eq_getElem ht
    have hsafe : TssProcess.safe tls s t .processExit = true := by
      have hq : quiet s = true := TssProcess.quiet_iff.mpr hj
      rcases hl with h | h <;> simp [TssProcess.safe, h, hq]
    have hf : TssProcess.front s.heap = none := by
      unfold TssProcess.front
      rw [List.findIdx?_eq_none_iff]
      intro o ho
      obtain ⟨i, hi⟩ := List.getElem?_of_mem ho
      cases o with
      | none => rfl
      | some c => exact absurd ⟨c, hi⟩ (hex i)
    unfold stepS
    rw [if_pos hsafe]
    unfold step
    simp only [hth]
    rw [if_neg (by rw [hI.alive]; nofun), if_pos (hj t _ hth)]
    unfold TssProcess.processExit
    rcases hl with h | h
    · rw [if_pos h]; unfold TssProcess.procLoop; simp only [hf]; exact ⟨_, rfl⟩
    · rw [if_neg (by rw [h]; nofun), if_pos h]; exact ⟨_, rfl⟩
  · have := hb x
    rw [TssProcess.held_none hI hex x] at this
    exact this

/-- **C88 (refuted).**  So, built with a recent MinGW, what a thread that does not end before the process does has handed over is dealt with only when that thread
stores another value or a `thread_specific_ptr` is destroyed, and nothing of it is lost either: it stays. -/
theorem C88_refuted_values {k : Kind} {ok : Bool} {hs : List Happening} {u : Nat} (h : threadsOnly hs) {tls : Bool} {n : Nat} {tr : List Ev} {s s' : St}
    (he : Exec (stepL (log .mingw k ok false (history hs u)) tls) (init n) tr s) {m : Nat} (hm : .threadEnd m ∉ hs) {x : Item}
    (hx : ∀ t, Ev.gave t x ∈ tr → t = m) {t : Nat} {op : Op} {es : List Ev}
    (hs : stepL (log .mingw k ok false (history hs u)) tls s (t, op) = some (s', es)) {e : Ev} (hmem : e ∈ es) (hse : isSettled x e = true ∨ isLost x e = true) :
    (∃ k, op = .deleteKey k) ∨ t = m ∧ ∃ k v, op = .reset k v := by
  obtain ⟨h1, h2, h3⟩ := mingw_exec h he
  obtain ⟨g1, g2, g3⟩ := stepL_mingw h hs
  by_cases hd : ∃ k, op = .deleteKey k
  · exact .inl hd
  · right
    have ht := hx t (C88_mine h1 (TssProcess.late_iff.mp h2) g2 (fun k e => hd ⟨k, e⟩) g1 hmem hse)
    subst ht
    refine ⟨rfl, ?_⟩
    cases op with
    | reset k v => exact ⟨k, v, rfl⟩
    | deleteKey k => exact absurd ⟨k, rfl⟩ hd
    | processExit => exact absurd rfl g2
    | threadExit => exact absurd rfl (g3 t hm)
    | next =>
      exfalso
      unfold step at g1
      simp only at g1
      split at g1
      · cases g1
      · next th hth =>
        split at g1
        · cases g1
        · rw [h3 t hm th hth] at g1; cases g1
    | _ => exact absurd hse (TssProcess.quiet_ops (by first | exact .inl ⟨_, rfl⟩ | exact .inr (.inl ⟨_, rfl⟩) | exact .inr (.inr (.inl ⟨_, rfl⟩)) | exact .inr (.inr (.inr ⟨_, rfl⟩))) g1 e hmem x)

/-- **C88 (refuted).**  And the callbacks it has registered are never called, nor are the mutexes it has handed over unlocked, until the process has gone. -/
theorem C88_refuted_callbacks {k : Kind} {ok : Bool} {hs : List Happening} {u : Nat} (h : threadsOnly hs) {tls : Bool} {n : Nat} {tr : List Ev} {s : St}
    (he : Exec (stepL (log .mingw k ok false (history hs u)) tls) (init n) tr s) {m : Nat} (hm : .threadEnd m ∉ hs) {x : Item}
    (hx : ∀ t, Ev.gave t x ∈ tr → t = m) (hc : (∃ i, x = .cb i) ∨ ∃ i, x = .ntf i) : settled x tr = 0 ∧ lostIn x tr = 0 := by
  induction he with
  | init => exact ⟨rfl, rfl⟩
  | @snoc tr s s' l es hex hs' ih =>
    have hx' : ∀ t, Ev.gave t x ∈ tr → t = m := fun t ht => hx t (List.mem_append_left _ ht)
    obtain ⟨i1, i2⟩ := ih hx'
    suffices key : ∀ e ∈ es, isSettled x e = false ∧ isLost x e = false by
      simp only [settled, lostIn, List.countP_append] at i1 i2 ⊢
      rw [i1, i2, List.countP_eq_zero.mpr fun e he => by simp [(key e he).1], List.countP_eq_zero.mpr fun e he => by simp [(key e he).2]]
      exact ⟨rfl, rfl⟩
    intro e hmem
    suffices h0 : ¬ (isSettled x e = true ∨ isLost x e = true) by simpa using h0
    intro hse
    have := C88_refuted_values h hex hm hx' hs' hmem hse
    exact TssProcess.values_only (by rcases this with h | ⟨_, h⟩; exact .inl h; exact .inr h) hc (stepL_mingw h hs').1 e hmem hse

/-! ### Examples: the hypotheses can be met -/

/-- Two threads start and end. -/
def demo : List Happening := [.threadStart 1, .threadStart 2, .threadEnd 2, .threadEnd 1]

theorem demo_threads : threadsOnly demo := by
  intro h hm
  simp only [demo, List.mem_cons, List.not_mem_nil, or_false] at hm
  rcases hm with rfl | rfl | rfl | rfl
  · exact ⟨1, .inl rfl⟩
  · exact ⟨2, .inl rfl⟩
  · exact ⟨2, .inr rfl⟩
  · exact ⟨1, .inr rfl⟩

example : log .dll .dll true false (history demo 0) =
    [(.start 0, [.processEnter, .threadEnter]), (.threadStart 1, [.threadEnter]), (.threadStart 2, [.threadEnter]), (.threadEnd 2, [.threadExit]),
     (.threadEnd 1, [.threadExit]), (.finish 0, [.threadExit, .processExit])] := by decide

example : log .msvc .dll true false (history demo 0) =
    [(.start 0, [.processEnter]), (.threadStart 1, []), (.threadStart 2, []), (.threadEnd 2, [.threadExit, .threadExit]),
     (.threadEnd 1, [.threadExit, .threadExit]), (.finish 0, [.threadExit, .processExit, .processExit])] := by decide

example : log .mingw .exe true false (history demo 0) =
    [(.start 0, []), (.threadStart 1, []), (.threadStart 2, []), (.threadEnd 2, [.threadExit]), (.threadEnd 1, [.threadExit]), (.finish 0, [])] := by decide

example : threadsOnly demo ∧ .threadEnd 1 ∈ demo ∧ .threadEnd 0 ∉ demo := ⟨demo_threads, by decide, by decide⟩

example : Contract (log .msvc .exe true false (history demo 0)) := C88_contract_partial demo_threads (.inr rfl)

theorem only_of_all {tr : List Ev} {x : Item} {m : Nat} (h : tr.all (fun e => match e with | .gave t y => y ≠ x || t = m | _ => true) = true) :
    ∀ t, Ev.gave t x ∈ tr → t = m := fun t ht => by simpa using List.all_eq_true.mp h _ ht

theorem slots_of_all {s : St} (h : s.threads.all (·.slot.isNone) = true) : ∀ (t : Nat) (th : TssProcess.Thread), s.threads[t]? = some th → th.slot = none :=
  fun _ th ht => by simpa using List.all_eq_true.mp h th (List.mem_of_getElem? ht)

/-- Threads 0 and 1 store values, register callbacks and hand over mutexes; thread 1 ends. -/
def demoRun : List (Nat × Op) :=
  [(0, .newKey true), (0, .reset 0 (some 5)), (0, .atThreadExit 3), (0, .notifyAtExit 9), (1, .reset 0 (some 6)), (1, .atThreadExit 4),
   (1, .threadExit), (1, .next), (1, .next), (1, .next), (1, .next), (1, .next), (1, .next), (1, .next)]

example : (runFrom (stepS true) (init 2) demoRun).map (·.2) = some
    [.key 0 0 true, .gave 0 (.val 0 5), .gave 0 (.cb 3), .gave 0 (.ntf 9), .gave 1 (.val 0 6), .gave 1 (.cb 4), .ran 1 4, .cleaned 1 0 6, .threadExited 1] := by decide

example : ∃ tr s s' es, Exec (stepS true) (init 2) tr s ∧ s.mgr = .live ∧ step true s (1, .next) = some (s', es) ∧ Ev.ran 1 4 ∈ es ∧
    isSettled (.cb 4) (.ran 1 4) = true :=
  ⟨_, _, _, _, exec_of_run (ls := demoRun.take 8) rfl, rfl, rfl, by decide, rfl⟩

example : ∃ tr s, Exec (stepS true) (init 2) tr s ∧ s.mgr = .live ∧ (∀ (t : Nat) (th : TssProcess.Thread), s.threads[t]? = some th → th.slot = none) ∧ 0 < s.threads.length ∧
    given (.val 0 6) tr = 1 :=
  ⟨_, _, exec_of_run (ls := (0, .newKey true) :: demoRun.drop 4) rfl, rfl, slots_of_all (by rfl), by decide, by decide⟩

example : ∃ tr s s' es, Exec (stepL (log .mingw .exe true false (history demo 0)) true) (init 2) tr s ∧
    stepL (log .mingw .exe true false (history demo 0)) true s (0, .reset 0 none) = some (s', es) ∧ (∀ t, Ev.gave t (.val 0 5) ∈ tr → t = 0) ∧
    Ev.cleaned 0 0 5 ∈ es ∧ Ev.gave 0 (.cb 3) ∈ tr ∧ (∀ t, Ev.gave t (.cb 3) ∈ tr → t = 0) ∧ Ev.threadExited 1 ∈ tr :=
  ⟨_, _, _, _, exec_of_run (ls := demoRun) rfl, rfl, only_of_all (by rfl), by decide, by decide, only_of_all (by rfl), by decide⟩

end Verif.TssHooks
