import Verif.Proof.Rest
import Verif.Props.AutoEventFutex
import Verif.Props.ManualEventFutex
import Verif.Props.WinMutex

/-!
# Property C96: bounded effort, no livelock

For every component with a retry loop: every run has at most `D` steps for each step for which users or the environment are responsible (`Bounded`), therefore it comes
to rest when these steps stop (`Settles`), and then every call has returned or waits for something that only a user can bring about (`..._rest`).  `D`
depends on the number of threads only.  Single calls are not bounded (`C96_not_wait_free`).
-/

namespace Verif.AutoFutex

open Verif.Spec.Effort

/-- **C96** (futex `auto_reset_event`). -/
theorem C96_bounded (n : Nat) : Bounded step (init n) charged (22 * n + 40) ∧ Settles step (init n) charged :=
  ⟨(Eff.pays n).bounded (by simp [init]) (by simp only [Eff.pot, init]; exact total_replicate (by simp [Eff.weight, Eff.changes, Eff.wakes, Eff.near]) n), (Eff.pays n).settles (by simp [init])⟩

-- 13 steps, three of them are the users'
example : demo.length = 13 ∧ charges step charged (init 3) demo = 3 := by decide

/-- Thread 0 is in `post()` and has read 0; thread 1 begins to wait and gives up, and both its changes disturb thread 0. -/
def disturb : List (Nat × Act) :=
  [(1, .call .timedWait), (1, .load 0), (1, .go), (1, .go), (0, .go), (1, .go), (1, .expired), (1, .load 1), (1, .go), (0, .go)]

theorem disturb_run (k : Nat) : ∃ tr, runFrom step ⟨⟨0, []⟩, [⟨.postLoop 0, []⟩, ⟨.idle, []⟩], 0⟩ (List.replicate k disturb).flatten =
    some (⟨⟨0, []⟩, [⟨.postLoop 0, []⟩, ⟨.idle, []⟩], 0⟩, tr) ∧ .postDone 0 ∉ tr ∧ .posted 0 ∉ tr := by
  induction k with
  | zero => exact ⟨[], rfl, by simp, by simp⟩
  | succ k ih =>
    obtain ⟨tr, h, h1, h2⟩ := ih
    rw [List.replicate_succ, List.flatten_cons]
    exact ⟨_, run_append (t₁ := [.called 1 .timedWait, .timedDone 1 false]) rfl h, by simp [h1], by simp [h2]⟩

/-- **C96: lock-free, but not wait-free.**  A single call of `post()` can be made to repeat its loop as often as one likes. -/
theorem C96_not_wait_free (k : Nat) : ∃ ls s tr, runFrom step (init 2) ls = some (s, tr) ∧
    k ≤ ls.countP (fun l => l == (0, .go)) ∧ ls.countP (fun l => l.1 == 0 && l.2 == .call .post) = 1 ∧ .postDone 0 ∉ tr ∧ .posted 0 ∉ tr := by
  obtain ⟨tr, h, h1, h2⟩ := disturb_run k
  have c1 : ∀ k, (List.replicate k disturb).flatten.countP (fun l => l == (0, Act.go)) = 2 * k := by
    intro k
    induction k with
    | zero => rfl
    | succ k ih =>
      rw [List.replicate_succ, List.flatten_cons, List.countP_append, ih]
      have : disturb.countP (fun l => l == (0, Act.go)) = 2 := by decide
      omega
  have c2 : ∀ k, (List.replicate k disturb).flatten.countP (fun l => l.1 == 0 && l.2 == .call .post) = 0 := by
    intro k
    induction k with
    | zero => rfl
    | succ k ih =>
      rw [List.replicate_succ, List.flatten_cons, List.countP_append, ih]
      decide
  refine ⟨_, _, _, run_append (l₁ := [(0, .call .post), (0, .load 0)]) (t₁ := [.called 0 .post]) rfl h, ?_, ?_, by simp [h1], by simp [h2]⟩
  · rw [List.countP_append, c1]; omega
  · rw [List.countP_append, c2]; decide

/-- **C96.** At rest every call has returned or sleeps without a time limit in `wait()`, and there is no post left for the sleepers. -/
theorem C96_rest {n : Nat} (hn : n ≤ 1023) {s : St} (h : Reachable step (init n) s) (hr : AtRest step charged s) :
    (∀ th ∈ s.ths, th.pc = .idle ∨ ∃ k, th.pc = .asleep k ∧ k ≠ .timed) ∧
    ((∃ th ∈ s.ths, th.isAsleep = true) → posts s.word.val = 0) := by
  have h1 : ∀ th ∈ s.ths, th.pc = .idle ∨ ∃ k, th.pc = .asleep k ∧ k ≠ .timed := by
    intro th hth
    obtain ⟨i, hi⟩ := List.mem_iff_getElem?.mp hth
    have hgo := hr (i, .go)
    have hld := hr (i, .load s.word.val)
    have hto := hr (i, .timeout)
    obtain ⟨pc, v⟩ := th
    cases pc with
    | idle => exact Or.inl rfl
    | asleep k =>
      refine Or.inr ⟨k, rfl, ?_⟩
      rintro rfl
      have := hto _ (by simp only [step, hi]; rfl)
      simp [charged] at this
    | postSignal =>
      by_cases hs : ∃ j : Nat, ∃ k v, s.ths[j]? = some ⟨.asleep k, v⟩
      · obtain ⟨j, k, v, hj⟩ := hs
        have := hr (i, .wake j) _ (by simp only [step, hi, hj]; rfl)
        simp [charged] at this
      · have := hr (i, .wakeNone) _ (by
          simp only [step, hi]
          refine (if_pos ?_).trans rfl
          rw [List.all_eq_true]
          rintro ⟨pc, v⟩ hx
          obtain ⟨j, hj⟩ := List.mem_iff_getElem?.mp hx
          cases pc <;> first | rfl | exact absurd ⟨j, _, _, hj⟩ hs)
        simp [charged] at this
    | postLoad | tryLoad _ | toLoad =>
      have := hld _ (by simp only [step, hi]; rfl)
      simp [charged] at this
    | reload k =>
      have : ∃ r, step s (i, .load s.word.val) = some r := by
        simp only [step, hi]; split <;> exact ⟨_, rfl⟩
      obtain ⟨r, hr⟩ := this
      have := hld _ hr
      simp [charged] at this
    | _ =>
      have : ∃ r, step s (i, .go) = some r := by
        simp only [step, hi]; repeat' split
        all_goals exact ⟨_, rfl⟩
      obtain ⟨r, hr⟩ := this
      have := hgo _ hr
      simp [charged] at this
  refine ⟨h1, fun hs => C18_quiescent hn h ?_ hs⟩
  intro th hth
  rcases h1 th hth with h2 | ⟨k, h2, _⟩
  · left; simp [Th.idle, h2]
  · right; simp [Th.isAsleep, h2, PC.isAsleep]

example : ∃ s, Reachable step (init 2) s ∧ AtRest step charged s ∧ ∃ th ∈ s.ths, th.isAsleep = true :=
  ⟨_, ⟨_, exec_of_run (ls := demo.take 6) rfl⟩, (by
    intro l r h
    obtain ⟨t, a⟩ := l
    match t with
    | 0 => cases a <;> first | rfl | cases h
    | 1 => cases a <;> first | rfl | cases h
    | t + 2 => cases h), by decide⟩

end Verif.AutoFutex

namespace Verif.ManualFutex

open Verif.Spec.Effort

/-- **C96** (futex `manual_reset_event`). -/
theorem C96_bounded (n : Nat) : Bounded step (init n) charged (12 * n + 20) ∧ Settles step (init n) charged :=
  ⟨(Eff.pays n).bounded (by simp [init]) (by simp only [Eff.pot, init]; exact total_replicate (by simp [Eff.weight, Eff.changes, Eff.wakes, Eff.near]) n), (Eff.pays n).settles (by simp [init])⟩

/-- **C96.** At rest every call has returned or sleeps without a time limit in `wait()`, and somebody sleeps only while the event is not set. -/
theorem C96_rest {n : Nat} (hn : n < 2 ^ 31) {tr : List Ev} {s : St} (h : Exec step (init n) tr s) (hr : AtRest step charged s) :
    (∀ th ∈ s.ths, th.pc = .idle ∨ ∃ k b, th.pc = .asleep k b ∧ k ≠ .timed) ∧
    ((∃ th ∈ s.ths, th.isAsleep = true) → flag tr = false) := by
  have hF := fresh_reach ⟨_, h⟩
  have h1 : ∀ th ∈ s.ths, th.pc = .idle ∨ ∃ k b, th.pc = .asleep k b ∧ k ≠ .timed := by
    intro th hth
    obtain ⟨i, hi⟩ := List.mem_iff_getElem?.mp hth
    have hgo := hr (i, .go)
    have hld := hr (i, .load s.word.val)
    have hto := hr (i, .timeout)
    have hf := hF i th hi
    obtain ⟨pc, v⟩ := th
    cases pc with
    | idle => exact Or.inl rfl
    | asleep k b =>
      refine Or.inr ⟨k, b, rfl, ?_⟩
      rintro rfl
      have := hto _ (by simp only [step, hi]; rfl)
      simp [charged] at this
    | reload k b =>
      have : ∃ r, step s (i, .load s.word.val) = some r := by
        simp only [step, hi]; simp only at hf
        split
        next h2 => rw [if_pos (hf.2 h2)]; exact ⟨_, rfl⟩
        next => exact ⟨_, rfl⟩
      obtain ⟨r, hr⟩ := this
      have := hld _ hr
      simp [charged] at this
    | _ =>
      have : ∃ r, step s (i, .go) = some r := by
        simp only [step, hi]; repeat' split
        all_goals exact ⟨_, rfl⟩
      obtain ⟨r, hr⟩ := this
      have := hgo _ hr
      simp [charged] at this
  refine ⟨h1, fun hs => ?_⟩
  apply Classical.byContradiction
  intro hf
  obtain ⟨j, th, hj, hw, _⟩ := C29_no_lost_wakeup hn h (by simpa using hf) hs
  rcases h1 th (List.mem_of_getElem? hj) with h2 | ⟨k, b, h2, _⟩
  all_goals obtain ⟨pc, v⟩ := th
  all_goals simp only at h2
  all_goals subst h2
  all_goals cases hw

example : ∃ s, Reachable step (init 2) s ∧ AtRest step charged s ∧ ∃ th ∈ s.ths, th.isAsleep = true :=
  ⟨_, ⟨_, exec_of_run (ls := demo.take 4) rfl⟩, (by
    intro l r h
    obtain ⟨t, a⟩ := l
    match t with
    | 0 => cases a <;> first | rfl | cases h
    | 1 => cases a <;> first | rfl | cases h
    | t + 2 => cases h), by decide⟩

end Verif.ManualFutex

namespace Verif.WinMutex

open Verif.Spec.Effort

/-- **C96** (mutexes of Windows). -/
theorem C96_bounded (n : Nat) : Bounded step (init n) charged (16 * n + 20) ∧ Settles step (init n) charged :=
  ⟨(Eff.pays n).bounded (by simp [init]) (by simp only [Eff.pot, init]; rw [total_replicate (by simp [Eff.weight, Eff.changes, Eff.near])]; simp [Eff.evWeight]), (Eff.pays n).settles (by simp [init])⟩

/-- **C96.** When nothing is possible but steps of the users and failures of the system, every call has returned or waits without a time limit in `lock()`, and
somebody waits only while another thread owns the mutex. -/
theorem C96_rest {n : Nat} (hn : n < 2 ^ 30) {tr : List Ev} {s : St} (h : Exec step (init n) tr s)
    (hr : AtRest step (fun s l => charged s l || l.2 == .osFail) s) :
    (∀ th ∈ s.ths, th.pc = .idle ∨ th.pc = .owner ∨ ∃ k old, th.pc = .evWait k old ∧ k ≠ .timed) ∧
    ((∃ th ∈ s.ths, th.sleeping = true) → ∃ j, holds tr j = true) := by
  have h1 : ∀ th ∈ s.ths, th.pc = .idle ∨ th.pc = .owner ∨ ∃ k old, th.pc = .evWait k old ∧ k ≠ .timed ∧ s.ev = false := by
    intro th hth
    obtain ⟨i, hi⟩ := List.mem_iff_getElem?.mp hth
    have hgo := hr (i, .go)
    have hto := hr (i, .timeout)
    obtain ⟨pc, v⟩ := th
    cases pc with
    | idle => exact Or.inl rfl
    | owner => exact Or.inr (Or.inl rfl)
    | evWait k old =>
      refine Or.inr (Or.inr ⟨k, old, rfl, ?_, ?_⟩)
      · rintro rfl
        have := hto _ (by simp only [step, hi]; rfl)
        simp [charged] at this
      · apply Classical.byContradiction
        intro he
        have := hgo _ (by simp only [step, hi]; rw [if_pos (by simpa using he)])
        simp [charged] at this
    | _ =>
      have : ∃ r, step s (i, .go) = some r := by
        simp only [step, hi]; repeat' split
        all_goals exact ⟨_, rfl⟩
      obtain ⟨r, hr⟩ := this
      have := hgo _ hr
      simp [charged] at this
  refine ⟨?_, ?_⟩
  · intro th hth
    rcases h1 th hth with h2 | h2 | ⟨k, o, h2, h3, _⟩
    · exact Or.inl h2
    · exact Or.inr (Or.inl h2)
    · exact Or.inr (Or.inr ⟨k, o, h2, h3⟩)
  · rintro ⟨th, hth, hs⟩
    apply Classical.byContradiction
    intro hno
    have hfree : ∀ t, holds tr t = false := by
      intro t
      cases ht : holds tr t
      · rfl
      · exact absurd ⟨t, ht⟩ hno
    obtain ⟨i, hi⟩ := List.mem_iff_getElem?.mp hth
    have hw := C10_no_lost_wakeup n hn tr s h hfree i th hi hs
    have he : s.ev = false := by
      rcases h1 th hth with h2 | h2 | ⟨k, o, h2, _, h3⟩
      · obtain ⟨pc, v⟩ := th; simp only at h2; subst h2; cases hs
      · obtain ⟨pc, v⟩ := th; simp only at h2; subst h2; cases hs
      · exact h3
    rcases hw with hw | ⟨j, x, hj, hx⟩
    · rw [he] at hw; cases hw
    · rcases h1 x (List.mem_of_getElem? hj) with h2 | h2 | ⟨k, o, h2, _⟩
      all_goals rcases hx with hx | hx | ⟨k', o', hx⟩
      all_goals rw [h2] at hx; cases hx

example : ∃ tr s, Exec step (init 2) tr s ∧ AtRest step (fun s l => charged s l || l.2 == .osFail) s ∧ ∃ th ∈ s.ths, th.sleeping = true :=
  ⟨_, _, exec_of_run (ls := [(0, .call .lock), (0, .go), (1, .call .lock), (1, .go), (1, .go), (1, .go)]) rfl, (by
    intro l r h
    obtain ⟨t, a⟩ := l
    match t with
    | 0 => cases a <;> first | rfl | cases h
    | 1 => cases a <;> first | rfl | cases h
    | t + 2 => cases h), by decide⟩

end Verif.WinMutex

namespace Verif.Spin

open Verif.Spec.Effort

/-- **C96** (spin mutex, both implementations). -/
theorem C96_bounded (v : Variant) (n : Nat) : Bounded (step v) (init n) charged 3 ∧ Settles (step v) (init n) charged :=
  ⟨(Eff.pays v).bounded ⟨_, inv_init n⟩ (by simp only [Eff.pot, init]; exact total_replicate (by simp [Eff.weight]) n), (Eff.pays v).settles ⟨_, inv_init n⟩⟩

/-- **C96.** At rest every call has returned, or somebody owns the mutex. -/
theorem C96_rest {v : Variant} {s : St} (hr : AtRest (step v) charged s) :
    (∀ th ∈ s.ths, th.pc = .idle) ∨ ∃ th ∈ s.ths, th.pc = .owner := by
  apply Classical.byContradiction
  intro hno
  rw [not_or] at hno
  obtain ⟨h1, h2⟩ := hno
  have hun : ∀ th ∈ s.ths, th.pc ≠ .unlocking := by
    intro th hth hp
    obtain ⟨i, hi⟩ := List.mem_iff_getElem?.mp hth
    obtain ⟨pc, w⟩ := th
    simp only at hp; subst hp
    have := hr (i, .go true) _ (by simp only [step, hi]; rfl)
    simp [charged, hi] at this
  have hfree : taken s = false := by
    rw [taken, List.any_eq_false]
    intro th hth
    simp only [Th.owns, Bool.or_eq_true, decide_eq_true_eq, not_or]
    exact ⟨fun h => h2 ⟨th, hth, h⟩, hun th hth⟩
  apply h1
  intro th hth
  obtain ⟨i, hi⟩ := List.mem_iff_getElem?.mp hth
  have hgo := hr (i, .go s.word.val)
  have ho : th.pc ≠ .owner := fun h => h2 ⟨th, hth, h⟩
  have hu := hun th hth
  obtain ⟨pc, w⟩ := th
  cases pc with
  | idle => rfl
  | owner => exact absurd rfl ho
  | unlocking => exact absurd rfl hu
  | _ =>
    have : ∃ r, step v s (i, .go s.word.val) = some r := by
      simp only [step, hi]; repeat' split
      all_goals exact ⟨_, rfl⟩
    obtain ⟨r, hr⟩ := this
    have := hgo _ hr
    simp [charged, hi, hfree] at this

example : ∃ s, Reachable (step .boolTTS) (init 2) s ∧ AtRest (step .boolTTS) charged s ∧ ∃ th ∈ s.ths, th.pc = .lockSpin :=
  ⟨_, ⟨_, exec_of_run (ls := [(0, .callLock), (0, .go true), (0, .go true), (1, .callLock)]) rfl⟩, (by
    intro l r h
    obtain ⟨t, a⟩ := l
    match t with
    | 0 => cases a <;> first | rfl | cases h
    | 1 => cases a <;> first | rfl | exact Bool.or_true _ | cases h
    | t + 2 => cases h), by decide⟩

end Verif.Spin

namespace Verif.SharedSpin

open Verif.Spec.Effort

/-- **C96** (shared spin mutex). -/
theorem C96_bounded (n : Nat) (hn : n < 2 ^ 31) :
    Bounded step (init n) charged (5 * n + 10) ∧ Settles step (init n) charged :=
  ⟨(Eff.pays hn).bounded ⟨by simp [init], locals_init n, _, inv_init n⟩ (by simp only [Eff.pot, init]; exact total_replicate (by simp [Eff.weight, Eff.changes, Eff.near]) n),
   (Eff.pays hn).settles ⟨by simp [init], locals_init n, _, inv_init n⟩⟩

/-- **C96.** At rest every call has returned, or somebody owns the mutex; if nobody owns it exclusively, no call of `lock_shared()` is unfinished. -/
theorem C96_rest {s : St} (hr : AtRest step charged s) :
    ((∀ th ∈ s.ths, th.pc = .idle) ∨ ∃ th ∈ s.ths, th.pc = .owner ∨ th.pc = .sharer) ∧
    ((∀ th ∈ s.ths, th.pc = .idle ∨ th.pc = .sharer ∨ th.pc = .lockSpin ∨ th.pc = .lockCas) ∨ ∃ th ∈ s.ths, th.pc = .owner) := by
  have hun : ∀ th ∈ s.ths, th.pc ≠ .unlocking ∧ th.pc ≠ .sharedUnlocking := by
    intro th hth
    obtain ⟨i, hi⟩ := List.mem_iff_getElem?.mp hth
    obtain ⟨pc, w⟩ := th
    refine ⟨?_, ?_⟩ <;> intro hp <;> simp only at hp <;> subst hp
    all_goals have := hr (i, .go) _ (by simp only [step, hi]; rfl)
    all_goals simp [charged, hi, outdated] at this
  have key : ∀ th ∈ s.ths, th.pc = .idle ∨ th.pc = .owner ∨ th.pc = .sharer ∨ ((th.pc = .lockSpin ∨ th.pc = .lockCas) ∧ taken s = true) ∨
      takenExcl s = true := by
    intro th hth
    obtain ⟨i, hi⟩ := List.mem_iff_getElem?.mp hth
    have hgo := hr (i, .go)
    have hld := hr (i, .load s.word.val)
    have hu := hun th hth
    obtain ⟨pc, w⟩ := th
    cases pc with
    | idle => simp
    | owner => simp
    | sharer => simp
    | unlocking => exact absurd rfl hu.1
    | sharedUnlocking => exact absurd rfl hu.2
    | lockSpin | sharedSpin | sharedLoad | trySharedLoad =>
      have := hld _ (by simp only [step, hi]; rfl)
      simp [charged, hi, outdated] at this
      try simp [this]
    | _ =>
      have : ∃ r, step s (i, .go) = some r := by
        simp only [step, hi]; repeat' split
        all_goals exact ⟨_, rfl⟩
      obtain ⟨r, hr⟩ := this
      have := hgo _ hr
      simp [charged, hi, outdated] at this
      try simp [this]
  have hex : takenExcl s = true → ∃ th ∈ s.ths, th.pc = .owner := by
    intro h
    obtain ⟨th, hth, h⟩ := List.any_eq_true.mp h
    refine ⟨th, hth, ?_⟩
    have hu := hun th hth
    obtain ⟨pc, w⟩ := th
    cases pc <;> simp_all
  have hta : taken s = true → ∃ th ∈ s.ths, th.pc = .owner ∨ th.pc = .sharer := by
    intro h
    obtain ⟨th, hth, h⟩ := List.any_eq_true.mp h
    refine ⟨th, hth, ?_⟩
    have hu := hun th hth
    obtain ⟨pc, w⟩ := th
    cases pc <;> simp_all
  refine ⟨?_, ?_⟩ <;> apply Classical.byContradiction <;> intro hno <;> rw [not_or] at hno <;> apply hno.1 <;> intro th hth
  · rcases key th hth with h | h | h | h | h
    · exact h
    · exact absurd ⟨th, hth, Or.inl h⟩ hno.2
    · exact absurd ⟨th, hth, Or.inr h⟩ hno.2
    · exact absurd (hta h.2) hno.2
    · obtain ⟨x, hx, h⟩ := hex h
      exact absurd ⟨x, hx, Or.inl h⟩ hno.2
  · rcases key th hth with h | h | h | h | h
    · exact Or.inl h
    · exact absurd ⟨th, hth, h⟩ hno.2
    · exact Or.inr (Or.inl h)
    · rcases h.1 with h | h <;> simp [h]
    · exact absurd (hex h) hno.2

example : ∃ s, Reachable step (init 2) s ∧ AtRest step charged s ∧ (∃ th ∈ s.ths, th.pc = .lockSpin) ∧ ∃ th ∈ s.ths, th.pc = .sharer :=
  ⟨_, ⟨_, exec_of_run (ls := [(0, .callLockShared), (0, .load 0), (0, .load 0), (0, .go), (1, .callLock)]) rfl⟩, (by
    intro l r h
    obtain ⟨t, a⟩ := l
    match t with
    | 0 => cases a <;> first | rfl | cases h
    | 1 => cases a <;> first | rfl | exact Bool.or_true _ | cases h
    | t + 2 => cases h), by decide, by decide⟩

end Verif.SharedSpin

namespace Verif.AutoSem

open Verif.Spec.Effort

/-- **C96** (`auto_reset_event` over a semaphore). -/
theorem C96_bounded (n : Nat) : Bounded step (init n) charged (8 * n + 12) ∧ Settles step (init n) charged :=
  ⟨(Eff.pays n).bounded (by simp [init]) (by simp only [Eff.pot, init]; exact total_replicate (by simp [Eff.weight, Eff.changes, Eff.near]) n), (Eff.pays n).settles (by simp [init])⟩

/-- **C96.** When nothing is possible but new calls and failures of the system, every call has returned or waits in `wait()` for the semaphore, whose count is zero. -/
theorem C96_rest {s : St} (hr : AtRest step (fun s l => charged s l || l.2 == .fail) s) :
    ∀ pc ∈ s.ths, pc = .idle ∨ (pc = .wSem .wait ∧ s.sem = 0) := by
  intro pc hpc
  obtain ⟨i, hi⟩ := List.mem_iff_getElem?.mp hpc
  have hgo := hr (i, .go)
  have hto := hr (i, .timeout)
  cases pc with
  | idle => exact Or.inl rfl
  | wSem k =>
    by_cases hs : 0 < s.sem
    · have := hgo _ (by simp only [step, hi]; rw [if_pos hs])
      simp [charged] at this
    · have hs0 : s.sem = 0 := by omega
      cases k with
      | wait => exact Or.inr ⟨rfl, hs0⟩
      | tryWait =>
        have := hgo _ (by simp only [step, hi]; rw [if_neg hs])
        simp [charged] at this
      | timed =>
        have := hto _ (by simp only [step, hi]; rw [if_pos hs0])
        simp [charged] at this
  | _ =>
    have : ∃ r, step s (i, .go) = some r := by
      simp only [step, hi]; repeat' split
      all_goals exact ⟨_, rfl⟩
    obtain ⟨r, hr⟩ := this
    have := hgo _ hr
    simp [charged] at this

example : ∃ s, Reachable step (init 2) s ∧ AtRest step (fun s l => charged s l || l.2 == .fail) s ∧ .wSem .wait ∈ s.ths :=
  ⟨_, ⟨_, exec_of_run (ls := [(0, .call (.acq .wait)), (0, .go)]) rfl⟩, (by
    intro l r h
    obtain ⟨t, a⟩ := l
    match t with
    | 0 => cases a <;> first | rfl | cases h
    | 1 => cases a <;> first | rfl | cases h
    | t + 2 => cases h), by decide⟩

end Verif.AutoSem

namespace Verif.Monitor

open Verif.Spec.Effort

variable {D S : Type}

/-- **C96** (the emulations of semaphores and events with a mutex and a condition variable). -/
theorem C96_bounded (M : Mon D S) (n : Nat) :
    Bounded (step M) (init M n) charged (6 * n + 12) ∧ Settles (step M) (init M n) charged :=
  ⟨(Eff.pays M n).bounded (by simp [init]) (by simp only [Eff.pot, init]; exact total_replicate (by simp [Eff.weight]) n), (Eff.pays M n).settles (by simp [init])⟩

end Verif.Monitor

namespace Verif.CvAny

open Verif.Spec.Effort

/-- **C96** (`condition_variable_any`). -/
theorem C96_bounded (n : Nat) : Bounded step (init n) charged (4 * n + 12) ∧ Settles step (init n) charged :=
  ⟨(Eff.pays n).bounded (by simp [init]) (by simp only [Eff.pot, init]; exact total_replicate (by simp [Eff.weight]) n), (Eff.pays n).settles (by simp [init])⟩

end Verif.CvAny

namespace Verif.CondVarPosix

open Verif.Spec.Effort

/-- **C96** (`condition_variable` over pthreads). -/
theorem C96_bounded {D : Type} (bug : Bool) (n : Nat) (d : D) :
    Bounded (step bug) (init n d) charged (4 * n + 12) ∧ Settles (step bug) (init n d) charged :=
  ⟨(Eff.pays bug n).bounded (by simp [init]) (by simp only [Eff.pot, init]; exact total_replicate (by simp [Eff.weight]) n), (Eff.pays bug n).settles (by simp [init])⟩

end Verif.CondVarPosix

namespace Verif.WinCv

open Verif.Spec.Effort

/-- **C96** (condition variable of Windows). -/
theorem C96_settles (n : Nat) : Settles step (init n) charged := Eff.settles n

end Verif.WinCv

namespace Verif.TimerInit

open Verif.Spec.Effort

/-- **C96** (initialisation of the Windows timer support). -/
theorem C96_bounded (c n : Nat) : Bounded step (init c n) charged 12 ∧ Settles step (init c n) charged :=
  ⟨Eff.pays.bounded ⟨_, inv_init c n⟩ (by simp only [Eff.pot, init]; exact total_replicate (by simp [Eff.weight]) n), Eff.pays.settles ⟨_, inv_init c n⟩⟩

/-- **C96.** At rest every call has returned. -/
theorem C96_rest {c n : Nat} {s : St} (h : Reachable step (init c n) s) (hr : AtRest step charged s) : ∀ pc ∈ s.ths, pc = .idle := by
  have hB := inBounds_reach h
  have h1 : ∀ pc ∈ s.ths, pc = .idle ∨ ∃ m, pc = .cas m := by
    intro pc hpc
    have hb := hB pc hpc
    obtain ⟨i, hi⟩ := List.mem_iff_getElem?.mp hpc
    have hgo := hr (i, .go)
    have hf := hr (i, .fault)
    cases pc with
    | idle => exact Or.inl rfl
    | cas m => exact Or.inr ⟨m, rfl⟩
    | alloc m | alloc2 m | query m =>
      have := hf _ (by simp only [step, hi]; rfl)
      simp [charged] at this
    | free m k | fail m =>
      have : ∃ r, step s (i, .go) = some r := by
        simp only [step, hi]; repeat' split
        all_goals first | exact ⟨_, rfl⟩ | skip
        all_goals simp_all [PC.mod]
      obtain ⟨r, hr⟩ := this
      have := hgo _ hr
      simp [charged, hi] at this
    | _ m =>
      have : ∃ r, step s (i, .go) = some r := by
        have hm : s.mods[m]? = some (s.mods[m]'(hb m rfl)) := List.getElem?_eq_getElem _
        cases hsem : s.sem <;> simp only [step, hi, hm, hsem] <;> repeat' split
        all_goals exact ⟨_, rfl⟩
      obtain ⟨r, hr⟩ := this
      have := hgo _ hr
      simp [charged, hi] at this
  intro pc hpc
  rcases h1 pc hpc with h2 | ⟨m, h2⟩
  · exact h2
  exfalso
  subst h2
  obtain ⟨i, hi⟩ := List.mem_iff_getElem?.mp hpc
  have hm : s.mods[m]? = some (s.mods[m]'(hB _ hpc m rfl)) := List.getElem?_eq_getElem _
  have : ∃ r, step s (i, .go) = some r := by
    simp only [step, hi, hm]; repeat' split
    all_goals exact ⟨_, rfl⟩
  obtain ⟨r, hs⟩ := this
  have hc := hr _ _ hs
  simp only [charged, hi] at hc
  obtain ⟨q, hq, hu⟩ := List.any_eq_true.mp hc
  rcases h1 q hq with rfl | ⟨m', rfl⟩ <;> cases hu

example : charges step charged (init 1 2) [(0, .call 0), (1, .call 0), (0, .go), (0, .go), (1, .go), (1, .go), (1, .go), (0, .go), (0, .slot 7)] = 4 := by
  decide

end Verif.TimerInit

namespace Verif.TssOnce

open Verif.Spec.Effort

/-- **C96** (construction of the manager of thread-specific data on Windows). -/
theorem C96_bounded (n : Nat) : Bounded step (init n) charged 7 ∧ Settles step (init n) charged :=
  ⟨Eff.pays.bounded ⟨_, inv_init n⟩ (by simp only [Eff.pot, init, Bool.false_eq_true, if_false]; exact total_replicate (by simp [Eff.weight]) n), Eff.pays.settles ⟨_, inv_init n⟩⟩

/-- **C96.** At rest the process has been aborted or every call has returned. -/
theorem C96_rest {s : St} (hr : AtRest step charged s) : s.aborted = true ∨ ∀ pc ∈ s.ths, pc = .idle := by
  cases ha : s.aborted
  · right
    have h1 : ∀ pc ∈ s.ths, pc = .idle ∨ pc = .cas := by
      intro pc hpc
      obtain ⟨i, hi⟩ := List.mem_iff_getElem?.mp hpc
      have hgo := hr (i, .go)
      cases pc with
      | idle => exact Or.inl rfl
      | cas => exact Or.inr rfl
      | construct =>
        have := hr (i, .addr 1) _ (by simp [step, hi, ha]; rfl)
        simp [charged] at this
      | _ =>
        have : ∃ r, step s (i, .go) = some r := by
          simp only [step, hi, ha]; simp only [Bool.false_eq_true, if_false]; repeat' split
          all_goals exact ⟨_, rfl⟩
        obtain ⟨r, hr⟩ := this
        have := hgo _ hr
        simp [charged, hi] at this
    intro pc hpc
    rcases h1 pc hpc with h2 | h2
    · exact h2
    exfalso
    subst h2
    obtain ⟨i, hi⟩ := List.mem_iff_getElem?.mp hpc
    have : ∃ r, step s (i, .go) = some r := by
      simp only [step, hi, ha]; simp only [Bool.false_eq_true, if_false]; repeat' split
      all_goals exact ⟨_, rfl⟩
    obtain ⟨r, hs⟩ := this
    have hc := hr _ _ hs
    simp only [charged, hi] at hc
    obtain ⟨q, hq, hu⟩ := List.any_eq_true.mp hc
    rcases h1 q hq with rfl | rfl <;> cases hu
  · left; rfl

example : charges step charged (init 2) [(0, .call), (1, .call), (0, .go), (0, .go), (1, .go), (1, .go), (1, .go), (0, .addr 5), (0, .go)] = 4 := by
  decide

end Verif.TssOnce
