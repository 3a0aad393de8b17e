import Verif.Proof.TimedAuto
import Verif.Proof.TimedWin
import Verif.Spec.AloneFair
import Verif.Spec.TimedEnds

/-! C119: calls with a time limit whose loops of compare-exchanges are not limited. -/

open Verif.Spec.Endless

namespace Verif.AutoFutex

/-- Thread `t` is in the futex wait of a call with a time limit, or about to look at the time and enter it. -/
def SleepsTimed (s : St) (t : Nat) : Prop := ∃ th, s.ths[t]? = some th ∧ ((∃ e, th.pc = .sleepCall .timed e) ∨ th.pc = .asleep .timed)

/-- A call with a time limit returns. -/
def TimedEnds (t : Nat) (es : List Ev) : Prop := ∃ b, .timedDone t b ∈ es

/-- The two ways to learn that the time limit has passed. -/
def TimeOver (a : Act) : Prop := a = .timeout ∨ a = .expired

/-- Thread `t` has learnt that its time limit has passed, and is about to leave. -/
def GivesUp (t : Nat) (s : St) : Prop := ∃ th old, s.ths[t]? = some th ∧ th.pc = .toLoop old

/-- **C119** (`auto_reset_event` over futexes) is false: a wait whose time limit has passed need not return: while another thread posts and takes the post again and again,
each compare-exchange of `on_wait_timed_out` can find the word changed, although loads read the newest value and no compare-exchange fails without a reason. -/
theorem C119_timed_wait_refuted : Starves step (init 2) 2 Fair (GivesUp 1) (TimedEnds 1) [.posted 0, .postDone 0, .tryDone 0 true] := by
  refine starves_of_rounds (step := step) (P := fun s => ∃ m v0 v1 f, s = ⟨⟨1, m⟩, [⟨.idle, v0⟩, ⟨.toLoop 1, v1⟩], f⟩) (by decide)
    (s := ⟨⟨1, []⟩, [⟨.idle, []⟩, ⟨.toLoop 1, []⟩], 0⟩)
    ⟨_, exec_of_run (r := (_, _)) (ls := [(1, .call .timedWait), (1, .load 0), (1, .go), (1, .go), (1, .go), (1, .go), (1, .timeout), (1, .load 1)]) rfl⟩ ⟨_, _, _, _, rfl⟩
    ⟨_, _, rfl, rfl⟩ ?_
  rintro s ⟨m, v0, v1, f, rfl⟩
  refine ⟨[((0, .call .post), [.called 0 .post]), ((0, .load 1), []), ((0, .go), [.posted 0]), ((0, .wakeNone), [.postDone 0]), ((1, .go), []), ((0, .call .tryWait), [.called 0 .tryWait]),
      ((0, .load 0x400001), []), ((0, .go), [.tryDone 0 true]), ((1, .go), [])], ?_⟩
  apply Exists.intro
  refine ⟨?_, ?_, by decide, by decide⟩
  · refine ⟨⟨⟨1, _⟩, [⟨.postLoad, _⟩, ⟨.toLoop 1, _⟩], _⟩, by with_unfolding_all rfl, ⟨by first | exact trivial | exact rfl, by rintro ⟨b, hb⟩; simp at hb⟩, ?_⟩
    refine ⟨⟨⟨1, _⟩, [⟨.postLoop 1, _⟩, ⟨.toLoop 1, _⟩], _⟩, by with_unfolding_all rfl, ⟨by first | exact trivial | exact rfl, by rintro ⟨b, hb⟩; simp at hb⟩, ?_⟩
    refine ⟨⟨⟨0x400001, _⟩, [⟨.postSignal, _⟩, ⟨.toLoop 1, _⟩], _⟩, by with_unfolding_all rfl, ⟨by first | exact trivial | exact rfl, by rintro ⟨b, hb⟩; simp at hb⟩, ?_⟩
    refine ⟨⟨⟨0x400001, _⟩, [⟨.idle, _⟩, ⟨.toLoop 1, _⟩], _⟩, by with_unfolding_all rfl, ⟨by first | exact trivial | exact rfl, by rintro ⟨b, hb⟩; simp at hb⟩, ?_⟩
    refine ⟨⟨⟨0x400001, _⟩, [⟨.idle, _⟩, ⟨.toLoop 0x400001, _⟩], _⟩, by with_unfolding_all rfl, ⟨by first | exact trivial | exact rfl, by rintro ⟨b, hb⟩; simp at hb⟩, ?_⟩
    refine ⟨⟨⟨0x400001, _⟩, [⟨.tryLoad .tryOnly, _⟩, ⟨.toLoop 0x400001, _⟩], _⟩, by with_unfolding_all rfl, ⟨by first | exact trivial | exact rfl, by rintro ⟨b, hb⟩; simp at hb⟩, ?_⟩
    refine ⟨⟨⟨0x400001, _⟩, [⟨.tryLoop .tryOnly 0x400001, _⟩, ⟨.toLoop 0x400001, _⟩], _⟩, by with_unfolding_all rfl, ⟨by first | exact trivial | exact rfl, by rintro ⟨b, hb⟩; simp at hb⟩, ?_⟩
    refine ⟨⟨⟨1, _⟩, [⟨.idle, _⟩, ⟨.toLoop 0x400001, _⟩], _⟩, by with_unfolding_all rfl, ⟨by first | exact trivial | exact rfl, by rintro ⟨b, hb⟩; simp at hb⟩, ?_⟩
    refine ⟨⟨⟨1, _⟩, [⟨.idle, _⟩, ⟨.toLoop 1, _⟩], _⟩, by with_unfolding_all rfl, ⟨by first | exact trivial | exact rfl, by rintro ⟨b, hb⟩; simp at hb⟩, ?_⟩
    exact rfl
  · exact ⟨_, _, _, _, rfl⟩

/-- **C119** (`auto_reset_event` over futexes), what holds: a wait with a time limit returns, posted or not, in every execution without end in which no thread that has a next
step is forgotten, time passes, and from some time on the other threads leave the word alone while the thread itself reads the newest value and its compare-exchanges do not
fail without a reason.  Missing: the same while others change the word, which is false. -/
theorem C119_timed_wait_partial (n : Nat) (st : Nat → St) (lbl : Nat → Nat × Act) (ev : Nat → List Ev) (h : Endless step (init n) st lbl ev)
    (hs : Scheduled step Next st lbl) (htime : TimelyBy SleepsTimed TimedEnds TimeOver st lbl ev) (t k i : Nat)
    (hsee : ∀ j, k ≤ j → (lbl j).1 = t → Fair (st j) (lbl j).2 ∨ (lbl j).2 = .spurious) (hq : ∀ j, k ≤ j → (lbl j).1 ≠ t → (st (j + 1)).word.val = (st j).word.val)
    (hi : .called t .timedWait ∈ ev i) : ∃ j, i < j ∧ TimedEnds t (ev j) := by
  have hsee' : ∀ j, k ≤ j → (lbl j).1 = t → Sees (st j) (lbl j).2 := fun j hj hl => by
    have := hsee j hj hl
    revert this; generalize (lbl j).2 = a; intro this
    cases a <;> first | trivial | (rcases this with e | e <;> first | exact e | cases e)
  have h0 : ∃ th, (st (i + 1)).ths[t]? = some th ∧ (th.pc.timedSleep = true ∨ th.pc.timedUp = true) := by
    exact (timed_called (u := (lbl i).1) (a := (lbl i).2) (h.next i) hi).imp fun _ e => ⟨e.1, .inr e.2⟩
  refine Classical.byContradiction fun hn => ?_
  have hall := from_on (p := fun j => ∃ th, (st j).ths[t]? = some th ∧ (th.pc.timedSleep = true ∨ th.pc.timedUp = true)) h0 fun j hj hp => by
    rcases timed_on h hp with h1 | h1
    · exact absurd ⟨j, by omega, h1⟩ hn
    · exact h1
  have hsl : ∀ {th : Th}, th.pc.timedSleep = true → (∃ e, th.pc = .sleepCall .timed e) ∨ th.pc = .asleep .timed := by
    rintro ⟨pc, v⟩ hp
    cases pc with
    | sleepCall k e => cases k <;> cases hp; exact .inl ⟨_, rfl⟩
    | asleep k => cases k <;> cases hp; exact .inr rfl
    | _ => cases hp
  obtain ⟨j, a, hj, ha, he⟩ := htime t (max k (i + 1)) (fun j hj he => hn ⟨j, by omega, he⟩) fun m => by
    obtain ⟨th, ht, hp | hp⟩ := hall (max m (max k (i + 1))) (by omega)
    · exact ⟨_, by omega, th, ht, hsl hp⟩
    · obtain ⟨j, hj, h1 | ⟨_, th', h1, h2⟩⟩ := timed_arrives h hs hsee' hq _ (by omega) (Nat.le_refl _) ht hp
      · exact absurd ⟨j, by omega, h1⟩ hn
      · exact ⟨j, by omega, th', h1, hsl h2⟩
  have hst := h.next j
  rw [he] at hst
  obtain ⟨th, ht, hp | hp⟩ := hall j (by omega)
  · obtain ⟨th', e, _, hto⟩ := timed_sleep hst ht hp
    obtain ⟨l, hl, r | r⟩ := timed_arrives h hs hsee' hq _ (by omega) (Nat.le_refl _) e (by rw [hto ha]; rfl)
    · exact hn ⟨l, by omega, r⟩
    · rw [hto ha] at r; cases r.1
  · exact hn ⟨j, by omega, timed_expired hst ht hp ha⟩

/-- The hypotheses can be met: a thread waits with a time limit again and again for an event that nobody posts. -/
example : ∃ st lbl ev, Endless step (init 1) st lbl ev ∧ Scheduled step Next st lbl ∧ TimelyBy SleepsTimed TimedEnds TimeOver st lbl ev ∧
    (∀ j, Fair (st j) (lbl j).2) ∧ (∀ j, (lbl j).1 = 0) ∧ Often fun j => .called 0 .timedWait ∈ ev j := by
  obtain ⟨st, lbl, ev, h1, _, h3, h4⟩ := endless_of_rounds (step := step) (good := fun s l _ => s.ths.length = 1 ∧ l.1 = 0 ∧ Fair s l.2)
    (P := fun s => s = ⟨⟨0, []⟩, [⟨.idle, []⟩], 0⟩) (R := fun (b : Bool) l es => if b then l = (0, .timeout) else .called 0 .timedWait ∈ es)
    (s₀ := init 1) (s := ⟨⟨0, []⟩, [⟨.idle, []⟩], 0⟩) true (by
      rintro s rfl
      refine ⟨[((0, .call .timedWait), [.called 0 .timedWait]), ((0, .load 0), []), ((0, .go), []), ((0, .go), []), ((0, .go), []), ((0, .go), []), ((0, .timeout), []), ((0, .load 1), []),
        ((0, .go), [.timedDone 0 false])], ?_⟩
      apply Exists.intro
      refine ⟨?_, rfl, fun b => ?_⟩
      · iterate 9 refine ⟨_, by with_unfolding_all rfl, ⟨rfl, rfl, by first | exact trivial | exact rfl⟩, ?_⟩
        exact rfl
      · cases b
        · exact ⟨((0, .call .timedWait), [.called 0 .timedWait]), by simp, by simp⟩
        · exact ⟨((0, .timeout), []), by simp, by simp⟩)
    ⟨_, exec_of_run (r := (_, _)) (ls := []) rfl⟩ rfl
  refine ⟨st, lbl, ev, h1, scheduled_of_often (n := 1) (fun u hu i => ⟨i, Nat.le_refl _, (h3 i).2.1.trans (by omega)⟩) fun i u hu ⟨a, r, _, hst⟩ => ?_, fun t i _ ho => ?_,
    fun j => (h3 j).2.2, fun j => (h3 j).2.1, fun i => ?_⟩
  · simp only [step] at hst
    rw [List.getElem?_eq_none (by rw [(h3 i).1]; omega)] at hst; cases hst
  · obtain ⟨j, hj, th, he, _⟩ := ho i
    have hz : t = 0 := by
      refine Classical.byContradiction fun hne => ?_
      rw [List.getElem?_eq_none (by rw [(h3 j).1]; omega)] at he; cases he
    subst hz
    obtain ⟨k, hk, e⟩ := h4 true i
    exact ⟨k, .timeout, hk, .inl rfl, e⟩
  · exact h4 false i

end Verif.AutoFutex

namespace Verif.WinMutex

/-- Thread `t` is in a lock function with a time limit, in the loop that marks it as waiting. -/
def Marks (t : Nat) (s : St) : Prop := ∃ th old, s.ths[t]? = some th ∧ th.pc = .mark .timed old

/-- Thread `t` waits for the event in a lock function with a time limit. -/
def SleepsTimed (s : St) (t : Nat) : Prop := ∃ th old, s.ths[t]? = some th ∧ th.pc = .evWait .timed old

/-- The two ways to learn that the time limit has passed. -/
def TimeOver (a : Act) : Prop := a = .timeout ∨ a = .expired

private theorem step_miss (m em v1 : View) (x : Th) (f : Nat) {w o : UInt32} (h : w ≠ o) : step ⟨⟨w, m⟩, false, em, [x, ⟨.mark .timed o, v1⟩], f⟩ (1, .go) =
    some (⟨⟨w, m⟩, false, em, [x, ⟨.mark .timed w, v1⟩], f⟩, []) := by
  simp only [step, List.getElem?_cons_zero, List.getElem?_cons_succ, if_neg h, List.set_cons_succ, List.set_cons_zero]

private theorem step_release (m em v0 : View) (x : Th) (f : Nat) : step ⟨⟨0x80000000, m⟩, false, em, [⟨.unlAdd, v0⟩, x], f⟩ (0, .go) =
    some (⟨⟨0, m ++ v0⟩, false, em, [⟨.idle, v0⟩, x], f⟩, [.released 0]) := by
  have h : (!isFlagged 0x80000000 && decide ((0x80000000 : UInt32) > lockFlag)) = false := by decide
  have h2 : (0x80000000 : UInt32) + lockFlag = 0 := by decide
  simp only [step, List.getElem?_cons_zero, h, h2, List.set_cons_zero]
  rfl

private theorem step_acquire (m em v0 : View) (x : Th) (f : Nat) : step ⟨⟨0, m⟩, false, em, [⟨.tryBts .lock, v0⟩, x], f⟩ (0, .go) =
    some (⟨⟨0x80000000, m⟩, false, em, [⟨.owner, v0 ++ m⟩, x], f⟩, [.acquired 0 .lock .fast]) := by
  have h : isLocked 0 = false := by decide
  have h2 : (0 : UInt32) ||| lockFlag = 0x80000000 := by decide
  simp only [step, List.getElem?_cons_zero, h, h2, List.set_cons_zero]
  rfl

/-- **C119** (timed mutex of Windows) is false: a lock function with a time limit need not return, and need not look at the time even once: while another thread locks and
unlocks the mutex again and again, each compare-exchange of `mark_waiting_and_try_lock` can find the word changed, although loads read the newest value and no
compare-exchange fails without a reason. -/
theorem C119_timed_lock_refuted : Starves step (init 2) 2 Fair (Marks 1) (TimedEnds 1) [.acquired 0 .lock .fast, .released 0] := by
  have no : ∀ es : List Ev, (∀ e ∈ es, match e with | .acquired 1 _ _ | .failed 1 _ | .threw 1 _ => False | _ => True) → ¬ TimedEnds 1 es := by
    rintro es h (⟨p, hp⟩ | hp | hp) <;> exact h _ hp
  refine starves_of_rounds (step := step) (P := fun s => ∃ m em v0 v1 f, s = ⟨⟨0x80000000, m⟩, false, em, [⟨.owner, v0⟩, ⟨.mark .timed 0, v1⟩], f⟩) (by decide)
    (s := ⟨⟨0x80000000, []⟩, false, [], [⟨.owner, []⟩, ⟨.mark .timed 0, []⟩], 0⟩)
    ⟨_, exec_of_run (r := (_, _)) (ls := [(0, .call .lock), (0, .go), (1, .call .timed), (1, .go), (1, .go), (0, .callUnlock), (0, .go), (1, .go), (0, .call .lock), (0, .go)])
      (by decide +kernel : _ = some (_, [.called 0 .lock, .acquired 0 .lock .fast, .called 1 .timed, .released 0, .called 0 .lock, .acquired 0 .lock .fast]))⟩
    ⟨_, _, _, _, _, rfl⟩ ⟨_, _, rfl, rfl⟩ ?_
  rintro s ⟨m, em, v0, v1, f, rfl⟩
  refine ⟨[((1, .go), []), ((0, .callUnlock), []), ((0, .go), [.released 0]), ((1, .go), []), ((0, .call .lock), [.called 0 .lock]), ((0, .go), [.acquired 0 .lock .fast])], ?_⟩
  apply Exists.intro
  refine ⟨?_, ?_, by decide, by decide⟩
  · refine ⟨_, step_miss _ _ _ _ _ (by decide), ⟨trivial, no _ (by simp)⟩, ?_⟩
    refine ⟨_, rfl, ⟨trivial, no _ (by simp)⟩, ?_⟩
    refine ⟨_, step_release _ _ _ _ _, ⟨trivial, no _ (by simp)⟩, ?_⟩
    refine ⟨_, step_miss _ _ _ _ _ (by decide), ⟨trivial, no _ (by simp)⟩, ?_⟩
    refine ⟨_, rfl, ⟨trivial, no _ (by simp)⟩, ?_⟩
    refine ⟨_, step_acquire _ _ _ _ _, ⟨trivial, no _ (by simp)⟩, ?_⟩
    exact rfl
  · exact ⟨_, _, _, _, _, rfl⟩

/-- **C119** (timed mutex of Windows), what holds: a lock function with a time limit returns or throws, whether or not the mutex becomes free, in every execution without end in
which no thread that has a next step is forgotten, time passes, and from some time on the other threads leave the word alone while the thread itself reads the newest value, its
compare-exchanges do not fail without a reason, and a time-out of the system is the end of its time.  Missing: the same while others change the word, which is false. -/
theorem C119_timed_lock_partial (n : Nat) (st : Nat → St) (lbl : Nat → Nat × Act) (ev : Nat → List Ev) (h : Endless step (init n) st lbl ev)
    (hs : Scheduled step Next st lbl) (htime : TimelyBy SleepsTimed TimedEnds TimeOver st lbl ev) (t k i : Nat)
    (hsee : ∀ j, k ≤ j → (lbl j).1 = t → Fair (st j) (lbl j).2 ∧ (lbl j).2 ≠ .again) (hq : ∀ j, k ≤ j → (lbl j).1 ≠ t → (st (j + 1)).word.val = (st j).word.val)
    (hi : .called t .timed ∈ ev i) : ∃ j, i < j ∧ TimedEnds t (ev j) := by
  have hsee' : ∀ j, k ≤ j → (lbl j).1 = t → Sees (st j) (lbl j).2 := fun j hj hl => by
    have := hsee j hj hl
    revert this; generalize (lbl j).2 = a; intro this
    cases a <;> first | trivial | exact this.1 | exact absurd rfl this.2
  have h0 : ∃ th, (st (i + 1)).ths[t]? = some th ∧ (th.pc.timedSleep = true ∨ th.pc.timedUp = true) :=
    (timed_called (u := (lbl i).1) (a := (lbl i).2) (h.next i) hi).imp fun _ e => ⟨e.1, .inr e.2⟩
  refine Classical.byContradiction fun hn => ?_
  have hall := from_on (p := fun j => ∃ th, (st j).ths[t]? = some th ∧ (th.pc.timedSleep = true ∨ th.pc.timedUp = true)) h0 fun j hj hp => by
    rcases timed_on h hp with h1 | h1
    · exact absurd ⟨j, by omega, h1⟩ hn
    · exact h1
  have hsl : ∀ {th : Th}, th.pc.timedSleep = true → ∃ old, th.pc = .evWait .timed old := by
    rintro ⟨pc, v⟩ hp
    cases pc with
    | evWait k e => cases k <;> cases hp; exact ⟨_, rfl⟩
    | _ => cases hp
  obtain ⟨j, a, hj, ha, he⟩ := htime t (max k (i + 1)) (fun j hj he => hn ⟨j, by omega, he⟩) fun m => by
    obtain ⟨th, ht, hp | hp⟩ := hall (max m (max k (i + 1))) (by omega)
    · obtain ⟨old, e⟩ := hsl hp
      exact ⟨_, by omega, th, old, ht, e⟩
    · obtain ⟨j, hj, h1 | ⟨_, th', h1, h2⟩⟩ := timed_arrives h hs hsee' hq _ (by omega) (Nat.le_refl _) ht hp
      · exact absurd ⟨j, by omega, h1⟩ hn
      · obtain ⟨old, e⟩ := hsl h2
        exact ⟨j, by omega, th', old, h1, e⟩
  have hst := h.next j
  rw [he] at hst
  obtain ⟨th, ht, hp | hp⟩ := hall j (by omega)
  · obtain ⟨th', e, hp', hto⟩ := timed_sleep hst ht hp
    obtain ⟨l, hl, r | r⟩ := timed_arrives h hs hsee' hq _ (by omega) (Nat.le_refl _) e hp'
    · exact hn ⟨l, by omega, r⟩
    · rw [hto ha] at r; cases r.1
  · exact hn ⟨j, by omega, timed_expired hst ht hp ha⟩

private theorem step_mark (m em v1 : View) (x : Th) (f : Nat) : step ⟨⟨0x80000000, m⟩, false, em, [⟨.mark .timed 0x80000000, v1⟩, x], f⟩ (0, .go) =
    some (⟨⟨0x80000001, m⟩, false, em, [⟨.evWait .timed 0x80000001, v1⟩, x], f⟩, []) := by
  have h : isLocked 0x80000000 = true := by decide
  have h2 : markNew 0x80000000 = 0x80000001 := by decide
  simp only [step, List.getElem?_cons_zero, h, h2, if_true, List.set_cons_zero]
  rfl

private theorem step_tried (m em v1 : View) (x : Th) (f : Nat) : step ⟨⟨0x80000000, m⟩, false, em, [⟨.tryBts .timed, v1⟩, x], f⟩ (0, .go) =
    some (⟨⟨0x80000000, m⟩, false, em, [⟨.load .timed, v1 ++ m⟩, x], f⟩, []) := by
  have h : isLocked 0x80000000 = true := by decide
  have h2 : (0x80000000 : UInt32) ||| lockFlag = 0x80000000 := by decide
  simp only [step, List.getElem?_cons_zero, h, h2, if_true, List.set_cons_zero]
  rfl

private theorem step_leave (m em v1 : View) (x : Th) (f : Nat) : step ⟨⟨0x80000001, m⟩, false, em, [⟨.sub .timed false, v1⟩, x], f⟩ (0, .go) =
    some (⟨⟨0x80000000, m⟩, false, em, [⟨.idle, v1⟩, x], f⟩, [.failed 0 .timed]) := by
  have h2 : (0x80000001 : UInt32) - 1 = 0x80000000 := by decide
  simp only [step, List.getElem?_cons_zero, h2, List.set_cons_zero]
  rfl

/-- The hypotheses can be met: a thread tries with a time limit to lock a mutex that another one keeps, again and again. -/
example : ∃ st lbl ev, Endless step (init 2) st lbl ev ∧ Scheduled step Next st lbl ∧ TimelyBy SleepsTimed TimedEnds TimeOver st lbl ev ∧
    (∀ j, Fair (st j) (lbl j).2 ∧ (lbl j).2 ≠ .again) ∧ (∀ j, (lbl j).1 = 0) ∧ Often fun j => .called 0 .timed ∈ ev j := by
  obtain ⟨st, lbl, ev, h1, _, h3, h4⟩ := endless_of_rounds (step := step)
    (good := fun s l _ => s.ths.length = 2 ∧ (s.ths[1]?.map Th.pc = some .owner) ∧ l.1 = 0 ∧ Fair s l.2 ∧ l.2 ≠ .again)
    (P := fun s => ∃ m em v0 v1 f, s = ⟨⟨0x80000000, m⟩, false, em, [⟨.idle, v0⟩, ⟨.owner, v1⟩], f⟩) (R := fun (b : Bool) l es => if b then l = (0, .timeout) else .called 0 .timed ∈ es)
    (s₀ := init 2) (s := ⟨⟨0x80000000, []⟩, false, [], [⟨.idle, []⟩, ⟨.owner, []⟩], 0⟩) true (by
      rintro s ⟨m, em, v0, v1, f, rfl⟩
      refine ⟨[((0, .call .timed), [.called 0 .timed]), ((0, .go), []), ((0, .go), []), ((0, .go), []), ((0, .timeout), []), ((0, .go), [.failed 0 .timed])], ?_⟩
      apply Exists.intro
      refine ⟨?_, ?_, fun b => ?_⟩
      · refine ⟨_, rfl, ⟨rfl, rfl, rfl, trivial, nofun⟩, ?_⟩
        refine ⟨_, step_tried _ _ _ _ _, ⟨rfl, rfl, rfl, trivial, nofun⟩, ?_⟩
        refine ⟨_, rfl, ⟨rfl, rfl, rfl, trivial, nofun⟩, ?_⟩
        refine ⟨_, step_mark _ _ _ _ _, ⟨rfl, rfl, rfl, trivial, nofun⟩, ?_⟩
        refine ⟨_, rfl, ⟨rfl, rfl, rfl, trivial, nofun⟩, ?_⟩
        refine ⟨_, step_leave _ _ _ _ _, ⟨rfl, rfl, rfl, trivial, nofun⟩, ?_⟩
        exact rfl
      · exact ⟨_, _, _, _, _, rfl⟩
      · cases b
        · exact ⟨((0, .call .timed), [.called 0 .timed]), by simp, by simp⟩
        · exact ⟨((0, .timeout), []), by simp, by simp⟩)
    ⟨_, exec_of_run (r := (_, _)) (ls := [(1, .call .lock), (1, .go)]) (by decide +kernel : _ = some (_, [.called 1 .lock, .acquired 1 .lock .fast]))⟩ ⟨_, _, _, _, _, rfl⟩
  refine ⟨st, lbl, ev, h1, fun u i => ⟨i, Nat.le_refl _, ?_⟩, fun t i _ ho => ?_, fun j => (h3 j).2.2.2, fun j => (h3 j).2.2.1, fun i => ?_⟩
  · by_cases hu : u = 0
    · exact .inl ((h3 i).2.2.1.trans hu.symm)
    · right
      rintro ⟨a, r, ha, hst⟩
      simp only [step] at hst
      by_cases h1u : u = 1
      · subst h1u
        obtain ⟨th, hth, hpc⟩ := Option.map_eq_some_iff.1 (h3 i).2.1
        rw [hth] at hst
        obtain ⟨pc, v⟩ := th
        simp only at hpc
        subst hpc
        cases a <;> first | exact ha | cases hst
      · rw [List.getElem?_eq_none (by rw [(h3 i).1]; omega)] at hst; cases hst
  · obtain ⟨j, hj, th, old, he, hpc⟩ := ho i
    have hz : t = 0 := by
      refine Classical.byContradiction fun hne => ?_
      by_cases h1u : t = 1
      · subst h1u
        have := (h3 j).2.1
        rw [he] at this
        simp [hpc] at this
      · rw [List.getElem?_eq_none (by rw [(h3 j).1]; omega)] at he; cases he
    subst hz
    obtain ⟨k, hk, e⟩ := h4 true i
    exact ⟨k, .timeout, hk, .inl rfl, e⟩
  · exact h4 false i

end Verif.WinMutex
