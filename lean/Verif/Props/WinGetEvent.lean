import Verif.Proof.WinGetEvent

/-! # Lazily created event of the Windows mutex (C68) -/

namespace Verif.WinGetEvent

/-- C68.  All calls of `get_event` that ever return, return the same non-null handle, and that handle is open and is
the one stored in the mutex. -/
theorem C68_same_event (n : Nat) (tr : List Ev) (s : St) (h : Exec step (init n) tr s)
    (t u a b : Nat) (ha : Ev.returned t a ∈ tr) (hb : Ev.returned u b ∈ tr) :
    a = b ∧ a ≠ 0 ∧ a ∈ s.opened ∧ a = s.event := by
  have I := inv_exec h
  have h1 := I.ret t a ha
  have h2 := I.ret u b hb
  refine ⟨h1.1.trans h2.1.symm, h1.2, ?_, h1.1⟩
  apply List.count_pos_iff.mp
  have := I.opened a
  have e : isEv s.event a = true := by simp only [isEv, decide_eq_true_eq]; exact h1
  rw [e, b2n_true] at this
  omega

/-- C68.  The stored event is never replaced. -/
theorem C68_never_replaced (tr' : List Ev) (s s' : St)
    (h0 : s.event ≠ 0) (h' : Exec step s tr' s') : s'.event = s.event := by
  refine h'.invariant' (fun x => x.event = s.event) rfl ?_
  intro x l x' es hx hs
  rw [← hx]
  exact event_stable (by rw [hx]; exact h0) hs

/-- C68.  A handle is closed only while open and only if it is not the event of the mutex. -/
theorem C68_close_is_legal (n : Nat) (tr : List Ev) (s s' : St) (h : Exec step (init n) tr s) (l : Nat × Act)
    (es : List Ev) (hs : step s l = some (s', es)) (t a : Nat) (ha : Ev.closed t a ∈ es) :
    a ∈ s.opened ∧ a ≠ s.event ∧ a ∉ s'.opened := by
  have I := inv_exec h
  obtain ⟨u, act⟩ := l
  unfold step at hs
  simp only at hs
  split at hs
  · cases hs
  next pc ht =>
  have hloc := I.loc u pc ht
  split at hs
  · cases hs; simp at ha
  · split at hs <;> (cases hs; simp at ha)
  · cases hs; simp at ha
  · split at hs
    · cases hs
    · cases hs; simp at ha
  · cases hs; simp at ha
  · split at hs <;> (cases hs; simp at ha)
  · next hd old =>
    cases hs
    simp at ha
    obtain ⟨rfl, rfl⟩ := ha
    have o := I.opened a
    have c := countP_pos_of_get (p := PC.holds a) ht (by simp [PC.holds])
    have hle := List.nodup_iff_count.mp I.nodup a
    refine ⟨List.count_pos_iff.mp (by omega), ?_, ?_⟩
    · rintro rfl
      have e : isEv s.event s.event = true := by simp [isEv]; exact hloc.2.2
      rw [e, b2n_true] at o
      omega
    · exact fun hm => (I.nodup.mem_erase_iff.mp hm).1 rfl
  · cases hs

/-- C68.  When no call is in progress every handle other than the event of the mutex has been closed as often as it
was handed out, and the destructor closes the last one. -/
theorem C68_no_leak (n : Nat) (tr : List Ev) (s : St) (h : Exec step (init n) tr s)
    (hidle : ∀ (i : Nat) (pc : PC), s.ths[i]? = some pc → pc = .idle) :
    (∀ a, creations a tr = closings a tr + (if a = s.event ∧ a ≠ 0 then 1 else 0)) ∧ destroy s = [] := by
  have I := inv_exec h
  have hz : ∀ a, s.ths.countP (PC.holds a) = 0 := by
    intro a
    apply countP_eq_zero_of_forall
    intro i pc hi
    rw [hidle i pc hi]; rfl
  have ho : ∀ a, s.opened.count a = if a = s.event ∧ a ≠ 0 then 1 else 0 := by
    intro a
    rw [I.opened a, hz a]
    by_cases hc : a = s.event ∧ a ≠ 0
    · simp only [isEv, decide_eq_true hc, if_pos hc]; rfl
    · simp only [isEv, decide_eq_false hc, if_neg hc]; rfl
  refine ⟨fun a => by rw [I.bal a, ho a], ?_⟩
  apply List.eq_nil_iff_forall_not_mem.mpr
  intro x hx
  unfold destroy at hx
  split at hx
  · next h0 =>
    have h1 := List.count_pos_iff.mpr hx
    rw [ho x] at h1
    split at h1
    · next hc => exact hc.2 (hc.1.trans h0)
    · omega
  · have h2 := I.nodup.mem_erase_iff.mp hx
    have h1 := List.count_pos_iff.mpr h2.2
    rw [ho x] at h1
    split at h1
    · next hc => exact h2.1 hc.1
    · omega

/-- C68.  A call throws only if the OS has not created the event. -/
theorem C68_throws {s s' : St} {u t : Nat} {a : Act} {es : List Ev} (hs : step s (u, a) = some (s', es)) (he : Ev.threw t ∈ es) :
    u = t ∧ a = .osFail := by
  unfold step at hs
  simp only at hs
  split at hs
  · cases hs
  split at hs
  all_goals (repeat' split at hs)
  all_goals first
    | contradiction
    | skip
  all_goals
    obtain ⟨rfl, rfl⟩ := Prod.mk.inj (Option.some.inj hs)
    simp at he
  exact ⟨he.symm, rfl⟩

/-- C68.  A call in progress returns the event if the OS creates what it is asked for, whatever has been loaded, and needs no other thread for that. -/
theorem C68_completes {s : St} {t : Nat} {pc : PC} (ht : s.ths[t]? = some pc) (hpc : pc ≠ .idle) :
    ∃ ls s' tr' a, runFrom step s ls = some (s', tr') ∧ (∀ l ∈ ls, l.1 = t ∧ l.2 ≠ .osFail) ∧ Ev.returned t a ∈ tr' ∧ s'.ths[t]? = some .idle := by
  have hset : ∀ (l : List PC) (p q : PC), l[t]? = some p → (l.set t q)[t]? = some q := fun l p q h => by
    rw [List.getElem?_set_self (List.getElem?_eq_some_iff.mp h).1]
  have hclose : ∀ (s : St) (h old : Nat), s.ths[t]? = some (.close h old) →
      ∃ s' tr' a, runFrom step s [(t, .go)] = some (s', tr') ∧ Ev.returned t a ∈ tr' ∧ s'.ths[t]? = some .idle := by
    intro s h old ht
    exact ⟨_, _, old, by simp only [runFrom, step, ht]; rfl, by simp, hset _ _ _ ht⟩
  have hcas : ∀ (s : St) (h : Nat), s.ths[t]? = some (.cas h) →
      ∃ ls s' tr' a, runFrom step s ls = some (s', tr') ∧ (∀ l ∈ ls, l.1 = t ∧ l.2 ≠ .osFail) ∧ Ev.returned t a ∈ tr' ∧ s'.ths[t]? = some .idle := by
    intro s h ht
    by_cases h0 : s.event = 0
    · exact ⟨[(t, .go)], _, _, h, by simp only [runFrom, step, ht, h0, if_true]; rfl, by simp, by simp, hset _ _ _ ht⟩
    · obtain ⟨s', tr', a, h1, h2, h3⟩ := hclose { s with ths := s.ths.set t (.close h s.event) } h s.event (hset _ _ _ ht)
      refine ⟨[(t, .go), (t, .go)], s', tr', a, ?_, by simp, h2, h3⟩
      rw [runFrom]
      simp only [step, ht, h0, if_false]
      rw [h1]; simp
  have hcreate : ∀ (s : St), s.ths[t]? = some .create →
      ∃ ls s' tr' a, runFrom step s ls = some (s', tr') ∧ (∀ l ∈ ls, l.1 = t ∧ l.2 ≠ .osFail) ∧ Ev.returned t a ∈ tr' ∧ s'.ths[t]? = some .idle := by
    intro s ht
    obtain ⟨h, hh⟩ : ∃ h, ¬ (h = 0 ∨ h ∈ s.opened) := by
      refine ⟨s.opened.foldr max 0 + 1, ?_⟩
      rintro (h | h)
      · omega
      · have : ∀ (l : List Nat) x, x ∈ l → x ≤ l.foldr max 0 := by
          intro l x
          induction l with
          | nil => exact nofun
          | cons y l ih =>
            intro hx
            rw [List.foldr_cons]
            rcases List.mem_cons.mp hx with rfl | hx
            · exact Nat.le_max_left ..
            · exact Nat.le_trans (ih hx) (Nat.le_max_right ..)
        have := this _ _ h
        omega
    obtain ⟨ls, s', tr', a, h1, h2, h3, h4⟩ := hcas { s with opened := h :: s.opened, ths := s.ths.set t (.cas h) } h (hset _ _ _ ht)
    refine ⟨(t, .create h) :: ls, s', _, a, ?_, ?_, List.mem_append_right [.created t h] h3, h4⟩
    · rw [runFrom]
      simp only [step, ht, hh, if_false]
      rw [h1]
    · intro l hl
      rcases List.mem_cons.mp hl with rfl | hl
      · exact ⟨rfl, by simp⟩
      · exact h2 l hl
  cases pc with
  | idle => exact absurd rfl hpc
  | load =>
    obtain ⟨ls, s', tr', a, h1, h2, h3, h4⟩ := hcreate { s with ths := s.ths.set t .create } (hset _ _ _ ht)
    refine ⟨(t, .stale) :: ls, s', tr', a, ?_, ?_, h3, h4⟩
    · rw [runFrom]
      simp only [step, ht]
      rw [h1]; simp
    · intro l hl
      rcases List.mem_cons.mp hl with rfl | hl
      · exact ⟨rfl, by simp⟩
      · exact h2 l hl
  | create => exact hcreate s ht
  | cas h => exact hcas s h ht
  | close h old =>
    obtain ⟨s', tr', a, h1, h2, h3⟩ := hclose s h old ht
    exact ⟨_, s', tr', a, h1, by simp, h2, h3⟩

/-- Two threads race; the loser closes its event and both return the winner's. -/
def demo : List (Nat × Act) :=
  [(0, .call), (1, .call), (0, .go), (1, .go), (0, .create 5), (1, .create 9), (1, .go), (0, .go), (0, .go)]

example : ∃ tr s, Exec step (init 2) tr s ∧ tr = [.created 0 5, .created 1 9, .returned 1 9, .closed 0 5, .returned 0 9] ∧
    s.opened = [9] ∧ s.ths = [.idle, .idle] :=
  ⟨_, _, exec_of_run (ls := demo) rfl, by decide, by decide, by decide⟩

/-- Thread 0 cannot create an event. -/
example : ∃ tr s s', Exec step (init 2) tr s ∧ step s (0, .osFail) = some (s', [.threw 0]) :=
  ⟨_, _, _, exec_of_run (ls := demo.take 3) rfl, rfl⟩

/-- A call in progress. -/
example : ∃ tr s, Exec step (init 2) tr s ∧ s.ths[0]? = some (.close 5 9) := ⟨_, _, exec_of_run (ls := demo.take 8) rfl, rfl⟩

end Verif.WinGetEvent
