import Verif.Proof.TssGone

/-! # C58–C61: thread-specific pointers

Executions start with any number `n` of threads and no object, for each of the three configurations. -/

namespace Verif.Tss

/-! ## C58 -/

/-- In any execution `get()` called by a thread that has not begun to exit returns what the thread last gave to the object, or null if it gave nothing:
nothing other threads do, and nothing done with other objects, changes it.  On Windows the same holds in callbacks registered with
at_thread_exit.  What is missing: `get()` in callbacks elsewhere and in cleanup functions at thread exit, which may find null
(`C58_refuted`), but never anything else (`C58_never_wrong`). -/
theorem C58_partial {cfg n tr s t th o s' es} (h : Exec (step cfg) (init n) tr s) (ht : s.threads[t]? = some th)
    (hp : th.ph = .running ∨ (cfg = .windows ∧ ∃ p r, th.ph = .atExit p r)) (hs : step cfg s (t, .get o) = some (s', es)) :
    s' = s ∧ es = [.got t o (lastValue t o tr)] := by
  have hv := (val_exec h).val t th ht (by
    rcases hp with hp | ⟨hc, p, r, hp⟩
    · exact .inl hp
    · exact .inr ⟨hc, .inr ⟨p, r, hp⟩⟩) o
  simp only [step, ht] at hs
  split at hs
  · cases hl : liveObj s o with
    | none => rw [hl] at hs; cases hs
    | some ob =>
      rw [hl] at hs
      obtain ⟨h1, h2⟩ := liveObj_some hl
      rw [← hv ob h1 h2]
      cases hs
      exact ⟨rfl, rfl⟩
  · cases hs

/-- Whenever `get()` returns something, that is what the thread last gave to the object. -/
theorem C58_never_wrong {cfg n tr s t o s' es v} (h : Exec (step cfg) (init n) tr s) (hs : step cfg s (t, .get o) = some (s', es))
    (hg : .got t o (some v) ∈ es) : lastValue t o tr = some v := by
  have hv := stale_exec h t
  simp only [step] at hs
  cases ht : s.threads[t]? with
  | none => rw [ht] at hs; cases hs
  | some th =>
    rw [ht] at hs
    dsimp only at hs
    split at hs
    · cases hl : liveObj s o with
      | none => rw [hl] at hs; cases hs
      | some ob =>
        rw [hl] at hs
        obtain ⟨h1, h2⟩ := liveObj_some hl
        cases hs
        simp only [List.mem_singleton, Ev.got.injEq, true_and] at hg
        exact hv th ht o ob h1 h2 v hg.symm
    · cases hs

/-- With a pthread key a callback at thread exit finds null although the thread has set a value, and this has not been cleaned up yet. -/
theorem C58_refuted : ∃ tr s, Exec (step (.pthreadKey 4)) (init 1) tr s ∧ lastValue 0 0 tr = some 7 ∧
    .got 0 0 none ∈ tr ∧ disposed ⟨0, 7⟩ tr = 0 :=
  ⟨_, _, exec_of_run (ls := [(0, .create true true), (0, .reset 0 (some 7)), (0, .atThreadExit 1), (0, .exit), (0, .exitStep), (0, .exitStep),
    (0, .get 0)]) rfl, rfl, by decide, by decide⟩

/-- Two threads use two objects, one of them with a recycled key. -/
def demoValues : List (Nat × Op) :=
  [(0, .create true true), (1, .reset 0 (some 5)), (1, .create false true), (0, .reset 0 (some 6)), (0, .reset 1 (some 9)), (1, .destroy 1),
   (1, .create true true), (1, .reset 2 (some 8)), (0, .reset 2 (some 3))]

example : ∃ tr s th, Exec (step .posixTls) (init 2) tr s ∧ s.threads[0]? = some th ∧ th.ph = .running ∧
    lastValue 0 0 tr = some 6 ∧ lastValue 1 0 tr = some 5 ∧ lastValue 0 2 tr = some 3 ∧
    step .posixTls s (0, .get 2) = some (s, [.got 0 2 (some 3)]) :=
  ⟨_, _, _, exec_of_run (ls := demoValues) rfl, rfl, rfl, rfl, rfl, rfl, rfl⟩

/-! ## C59 -/

/-- No two live objects have the same key. -/
theorem C59_distinct {cfg n tr s} {o o' : Nat} {ob ob' : Obj} (h : Exec (step cfg) (init n) tr s) (ho : s.objs[o]? = some ob) (ho' : s.objs[o']? = some ob')
    (hl : ob.live = true) (hl' : ob'.live = true) (hk : ob.key = ob'.key) : o = o' :=
  (inv_exec h).1.tab.uniq o o' ob ob' ho ho' (.inl hl) (.inl hl') hk

/-- A new object reads null in every thread, in particular when its key was used before: whatever thread calls `get()` next. -/
theorem C59_starts_null {cfg n tr s t c d s₁ es₁ t' s₂ es₂} (h : Exec (step cfg) (init n) tr s) (hc : step cfg s (t, .create c d) = some (s₁, es₁))
    (hg : step cfg s₁ (t', .get s.objs.length) = some (s₂, es₂)) :
    es₁ = [.created s.objs.length] ∧ es₂ = [.got t' s.objs.length none] := by
  have hx := Exec.snoc h hc
  have hi := (inv_exec h).1
  have hu := (inv_exec hx).2
  have key : es₁ = [.created s.objs.length] ∧ ∀ o, s.objs.length ≤ o → ∀ (i : Nat), lastValue i o (tr ++ es₁) = none := by
    cases sstep_of_step hc with
    | create hth hu hn =>
      obtain ⟨_, _, h3, _, k, h5, _⟩ := tab_newKey hi.tab hn
      refine ⟨h3, fun o ho i => ?_⟩
      rw [lastValue_other (by rw [h3]; simp [evThread])]
      exact (val_exec h).fresh i o ho
    | localStep hth hl =>
      exfalso
      simp only [step, hth] at hc
      split at hc
      · unfold newKey at hc
        dsimp only at hc
        split at hc
        · split at hc
          · simp only [Option.some.injEq, Prod.mk.injEq] at hc
            obtain ⟨_, rfl⟩ := hc
            exact hu (by simp)
          · simp only [Option.some.injEq, Prod.mk.injEq] at hc
            obtain ⟨hc, _⟩ := hc
            have := congrArg (fun s => s.objs.length) hc
            simp at this
        · simp only [Option.some.injEq, Prod.mk.injEq] at hc
          obtain ⟨hc, _⟩ := hc
          have := congrArg (fun s => s.objs.length) hc
          simp at this
      · cases hc
  refine ⟨key.1, ?_⟩
  have hn := key.2 _ (Nat.le_refl _) t'
  have hval : ∀ v, .got t' s.objs.length (some v) ∉ es₂ := fun v hm => by
    rw [C58_never_wrong hx hg hm] at hn; cases hn
  simp only [step] at hg
  cases ht : s₁.threads[t']? with
  | none => rw [ht] at hg; cases hg
  | some th =>
    rw [ht] at hg
    dsimp only at hg
    split at hg
    · cases hl : liveObj s₁ s.objs.length with
      | none => rw [hl] at hg; cases hg
      | some ob =>
        rw [hl] at hg
        cases hg
        cases hgs : (getSpecific th ob.key).map Ptr.v with
        | none => rfl
        | some v => rw [hgs] at hval; exact absurd (List.mem_singleton.mpr rfl) (hval v)
    · cases hg

/-- Object 1 has had values in both threads, when its key is used again. -/
example : ∃ tr s s₁ es₁, Exec (step .windows) (init 2) tr s ∧ step .windows s (0, .create true true) = some (s₁, es₁) ∧
    (s₁.objs[2]?).map Obj.key = (s.objs[1]?).map Obj.key ∧ lastValue 0 1 tr = some 9 ∧ lastValue 1 1 tr = some 4 ∧
    step .windows s₁ (1, .get 2) = some (s₁, [.got 1 2 none]) :=
  ⟨_, _, _, _, exec_of_run (ls := [(0, .create true true), (1, .create false true), (0, .reset 1 (some 9)), (1, .reset 1 (some 4)), (1, .destroy 1)]) rfl,
    rfl, rfl, rfl, rfl, rfl⟩

/-! ## C60 -/

theorem held_zero {cfg n tr s} (h : Exec (step cfg) (init n) tr s) (hd : ∀ th ∈ s.threads, th.ph = .done ∧ th.slot = none) (p : Ptr) : held p s = 0 := by
  unfold held
  have : ∀ x ∈ s.threads.map (heldBy p), x = 0 := by
    intro x hx
    rw [List.mem_map] at hx
    obtain ⟨th, ht, rfl⟩ := hx
    obtain ⟨i, hi⟩ := List.getElem?_of_mem ht
    have hti := (inv_exec h).1.thr i th hi
    obtain ⟨h1, h2⟩ := hd th ht
    have h3 := hti.noDying (.inr (by rw [h1]; rfl))
    have h4 := hti.idle (by rw [h1]; simp) (by rw [h1]; rfl)
    simp [heldBy, h1, h2, h3, h4, inCtx, inPhase]
  generalize s.threads.map (heldBy p) = l at this
  induction l with
  | nil => rfl
  | cons a l ih => rw [List.sum_cons, this a (by simp), ih (fun x hx => this x (by simp [hx]))]

/-- Every value stored has been disposed of once (cleaned up, forgotten for want of a cleanup function, or released) or is still held in one
place by a thread: counted for each value over the whole execution, so nothing is cleaned up twice or cleaned up after its
release. -/
theorem C60_accounting {cfg n tr s} (h : Exec (step cfg) (init n) tr s) (p : Ptr) : stored p tr = disposed p tr + held p s := acct_exec h p

/-- Values are cleaned up by the cleanup function of the object they were stored in, and forgotten only if there is none, in executions in
which no object is destroyed while an exiting thread has a value of it in the list it is cleaning up (without that condition: C61). -/
theorem C60_rightly_partial {cfg n tr s} (h : Exec (stepC cfg) (init n) tr s) : ∀ e ∈ tr, rightly s.objs e := (right_exec h).all

/-- When all threads are gone and have left nothing, every value has been disposed of exactly once.  What is missing: threads that leave
something, which is possible except on Windows (`C60_refuted`, C65). -/
theorem C60_nothing_left_partial {cfg n tr s} (h : Exec (step cfg) (init n) tr s) (hd : ∀ th ∈ s.threads, th.ph = .done ∧ th.slot = none) (p : Ptr) :
    stored p tr = disposed p tr := by
  rw [C60_accounting h p, held_zero h hd p, Nat.add_zero]

/-- On Windows, when all threads are gone every value has been disposed of exactly once. -/
theorem C60_nothing_left_windows {n tr s} (h : Exec (step .windows) (init n) tr s) (hd : ∀ th ∈ s.threads, th.ph = .done) (p : Ptr) :
    stored p tr = disposed p tr :=
  C60_nothing_left_partial h (fun th ht => by
    obtain ⟨i, hi⟩ := List.getElem?_of_mem ht
    exact ⟨hd th ht, goneW_exec h i th hi rfl (hd th ht)⟩) p

/-- The cleanup functions of a thread set a value again, as often as the system calls the destructor of the key: the last one
is leaked. -/
theorem C60_refuted : ∃ tr s, Exec (stepC (.pthreadKey 4)) (init 1) tr s ∧ (∀ th ∈ s.threads, th.ph = .done) ∧
    .ended 0 ∈ tr ∧ stored ⟨0, 4⟩ tr = 1 ∧ disposed ⟨0, 4⟩ tr = 0 := by
  let round (v : Nat) : List (Nat × Op) := [(0, .exitStep), (0, .exitStep), (0, .exitStep), (0, .exitStep), (0, .reset 0 (some v)),
    (0, .exitStep), (0, .exitStep)]
  exact ⟨_, _, exec_of_run (ls := [(0, .create true true), (0, .reset 0 (some 0)), (0, .exit)] ++ round 1 ++ round 2 ++ round 3 ++ round 4 ++ [(0, .exitStep)]) rfl,
    by decide, by decide, by decide, by decide⟩

/-- Values replaced, released, cleaned up at thread exit and by the destruction of the object, and one stored by a cleanup function. -/
def demoAcct : List (Nat × Op) :=
  [(0, .create true true), (0, .create false true), (0, .reset 0 (some 1)), (0, .reset 0 (some 2)), (0, .release 0), (0, .reset 0 (some 3)),
   (0, .reset 1 (some 4)), (1, .reset 0 (some 5)), (0, .exit), (0, .exitStep), (0, .exitStep), (0, .exitStep), (0, .exitStep), (0, .reset 1 (some 6)),
   (0, .exitStep), (0, .exitStep), (0, .exitStep), (0, .exitStep), (0, .exitStep), (0, .exitStep), (1, .destroy 0), (1, .cleanNext), (1, .exit),
   (1, .exitStep), (1, .exitStep), (1, .exitStep), (1, .exitStep), (1, .exitStep), (1, .exitStep)]

example : ∃ tr s, Exec (stepC .windows) (init 2) tr s ∧ Exec (step .windows) (init 2) tr s ∧ (∀ th ∈ s.threads, th.ph = .done ∧ th.slot = none) ∧
    .cleaned 0 .replaced 0 ⟨0, 1⟩ ∈ tr ∧ .released 0 ⟨0, 2⟩ ∈ tr ∧ .cleaned 0 .exit 0 ⟨0, 3⟩ ∈ tr ∧ .dropped 0 ⟨1, 4⟩ ∈ tr ∧
    .cleaned 1 .deleted 0 ⟨0, 5⟩ ∈ tr ∧ .dropped 0 ⟨1, 6⟩ ∈ tr := by
  have h : Exec (stepC .windows) (init 2) _ _ := exec_of_run (ls := demoAcct) rfl
  exact ⟨_, _, h, exec_of_stepC h, by decide, by decide, by decide, by decide, by decide, by decide, by decide⟩

/-! ## C61 -/

/-- Thread 1 exits with values of objects 0 and 1, and is running the cleanup function of object 0 when thread 0 destroys object 1. -/
def leak : List (Nat × Op) :=
  [(0, .create true true), (0, .create true true), (1, .reset 0 (some 10)), (1, .reset 1 (some 11)), (1, .exit), (1, .exitStep), (1, .exitStep),
   (1, .exitStep), (1, .exitStep), (0, .destroy 1)]

/-- The property is false of the code.  An object is destroyed while an exiting thread has its value in the list it is cleaning up: the value is
not cleaned up by the destruction and is then leaked; if the key has been given to a new object in between, the value is
passed to the cleanup function of the new object.  With both implementations. -/
theorem C61_refuted :
    (∃ tr s, Exec (step .windows) (init 2) tr s ∧ .dropped 1 ⟨1, 11⟩ ∈ tr ∧ (s.objs[1]?).map Obj.cleanup = some true) ∧
    (∃ tr s, Exec (step .windows) (init 2) tr s ∧ .cleaned 1 .exit 2 ⟨1, 11⟩ ∈ tr) ∧
    (∃ tr s, Exec (step (.pthreadKey 4)) (init 2) tr s ∧ .dropped 1 ⟨1, 11⟩ ∈ tr ∧ (s.objs[1]?).map Obj.cleanup = some true) ∧
    (∃ tr s, Exec (step (.pthreadKey 4)) (init 2) tr s ∧ .cleaned 1 .exit 2 ⟨1, 11⟩ ∈ tr) :=
  ⟨⟨_, _, exec_of_run (ls := leak ++ [(1, .exitStep)]) rfl, by decide, rfl⟩,
   ⟨_, _, exec_of_run (ls := leak ++ [(0, .create true true), (1, .exitStep)]) rfl, by decide⟩,
   ⟨_, _, exec_of_run (ls := leak ++ [(1, .exitStep)]) rfl, by decide, rfl⟩,
   ⟨_, _, exec_of_run (ls := leak ++ [(0, .create true true), (1, .exitStep)]) rfl, by decide⟩⟩

/-- What remains true when objects are destroyed at any moment: every value is disposed of at most once, by whatever function, and nothing goes
out of bounds.  What is missing: that it is the right function (`C61_refuted`). -/
theorem C61_at_most_once_partial {cfg n tr s} (h : Exec (step cfg) (init n) tr s) (p : Ptr) : disposed p tr ≤ stored p tr ∧ Ev.ub ∉ tr :=
  ⟨by rw [C60_accounting h p]; omega, (inv_exec h).2⟩

/-- Destroying an object while threads exit is safe as long as none of its values is in a list being cleaned up at that moment: values still in the
storage of exiting threads are cleaned up by the destruction. -/
theorem C61_considerate_partial {cfg n tr s} (h : Exec (stepC cfg) (init n) tr s) (p : Ptr) :
    (∀ e ∈ tr, rightly s.objs e) ∧ stored p tr = disposed p tr + held p s :=
  ⟨C60_rightly_partial h, C60_accounting (exec_of_stepC h) p⟩

/-- Thread 1 is running an exit callback when the object is destroyed. -/
example : ∃ tr s, Exec (stepC (.pthreadKey 4)) (init 2) tr s ∧ .ran 1 0 ∈ tr ∧ .cleaned 0 .deleted 0 ⟨0, 10⟩ ∈ tr :=
  ⟨_, _, exec_of_run (ls := [(0, .create true true), (1, .reset 0 (some 10)), (1, .atThreadExit 0), (1, .exit), (1, .exitStep), (1, .exitStep), (0, .destroy 0),
    (0, .cleanNext)]) rfl, by decide, by decide⟩

end Verif.Tss
