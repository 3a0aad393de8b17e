import Verif.Proof.WinCondVarRing
import Verif.Spec.WinCondVar

/-! # The notify loop of the Windows condition variable ends -/

namespace Verif.WinCv

theorem isIssued_self (t m : Nat) : Ev.isIssued t (.issued t m) = true := beq_self_eq_true t

/-- Steps of other threads while `t` owns the internal mutex leave the loop's data alone. -/
theorem other_step {s s' : St} {t u : Nat} {es : List Ev} {pc : PC} (hl : Locks s) (ht : s.ths[t]? = some pc)
    (hh : pc.holds = true) (hne : u ≠ t) (h : Step s u s' es) :
    s'.ths[t]? = some pc ∧ core s'.nodes = core s.nodes ∧ s'.notify = s.notify ∧ es.countP (Ev.isIssued t) = 0 := by
  have hown := hl.own t pc ht hh
  have key : ∀ (x : PC), s.ths[u]? = some x → x.holds = true → False := by
    intro x hx hp
    have := hl.own u x hx hp
    rw [hown] at this; cases this; exact hne rfl
  have hset : ∀ x : PC, (s.ths.set u x)[t]? = some pc := fun x => by rw [get_set_ne hne]; exact ht
  cases h with
  | userLock h hu => exact ⟨ht, rfl, rfl, rfl⟩
  | userUnlock h hu => exact ⟨ht, rfl, rfl, rfl⟩
  | goto h hg => exact ⟨hset _, rfl, rfl, by cases hg <;> rfl⟩
  | enter h hg ho => rw [hown] at ho; cases ho
  | exit h hg => exact absurd (by cases hg <;> rfl) (key _ h)
  | first h _ => exact absurd rfl (key _ h)
  | join h _ _ _ => exact absurd rfl (key _ h)
  | advance h _ _ _ => exact absurd rfl (key _ h)
  | around h _ _ _ => exact absurd rfl (key _ h)
  | create h _ => exact absurd rfl (key _ h)
  | unlock h => exact ⟨hset _, rfl, rfl, rfl⟩
  | token h hx hp => exact ⟨hset _, core_set_same hx rfl rfl rfl, rfl, rfl⟩
  | leave h hg _ _ => exact absurd (by cases hg <;> rfl) (key _ h)
  | leave0 h hg _ _ => exact absurd (by cases hg <;> rfl) (key _ h)
  | relock h _ => exact ⟨hset _, rfl, rfl, rfl⟩
  | decide0 h _ => exact absurd rfl (key _ h)
  | decide h _ _ => exact absurd rfl (key _ h)
  | wakeLast h _ _ _ => exact absurd rfl (key _ h)
  | wakeNext h _ _ _ => exact absurd rfl (key _ h)

/-- An iteration of the loop. -/
theorem wake_step {s s' : St} {t c k : Nat} {es : List Ev} (ht : s.ths[t]? = some (.waking c))
    (hw : WakeIn (core s.nodes) s.notify c k) (h : Step s t s' es) :
    es.countP (Ev.isIssued t) = 1 ∧ ((k = 1 ∧ s'.ths[t]? = some .nExit) ∨
      ∃ c', s'.ths[t]? = some (.waking c') ∧ WakeIn (core s'.nodes) s'.notify c' (k - 1)) := by
  cases h with
  | userLock h hu => rw [ht] at h; cases h
  | userUnlock h hu => rw [ht] at h; cases h
  | goto h hg => rw [ht] at h; cases h; cases hg
  | enter h hg ho => rw [ht] at h; cases h; cases hg
  | exit h hg => rw [ht] at h; cases h; cases hg
  | first h _ => rw [ht] at h; cases h
  | join h _ _ _ => rw [ht] at h; cases h
  | advance h _ _ _ => rw [ht] at h; cases h
  | around h _ _ _ => rw [ht] at h; cases h
  | create h _ => rw [ht] at h; cases h
  | unlock h => rw [ht] at h; cases h
  | token h hx hp => rw [ht] at h; cases h
  | leave h hg _ _ => rw [ht] at h; cases h; cases hg
  | leave0 h hg _ _ => rw [ht] at h; cases h; cases hg
  | relock h _ => rw [ht] at h; cases h
  | decide0 h _ => rw [ht] at h; cases h
  | decide h _ _ => rw [ht] at h; cases h
  | @wakeLast c' x m h hx hm hc =>
    rw [ht] at h; cases h
    refine ⟨by simp [isIssued_self], .inl ⟨?_, get_set_self ht⟩⟩
    cases hw with
    | last => rfl
    | next hx' hc' _ =>
      rw [core_get hx] at hx'; cases hx'
      rw [← hm] at hc'; exact absurd hc hc'
  | @wakeNext c' x m h hx hm hc =>
    rw [ht] at h; cases h
    refine ⟨by simp [isIssued_self], .inr ⟨c - m, get_set_self ht, ?_⟩⟩
    cases hw with
    | last hx' hc' =>
      rw [core_get hx] at hx'; cases hx'
      rw [← hm] at hc'; exact absurd hc' hc
    | next hx' hc' hk =>
      rw [core_get hx] at hx'; cases hx'
      rw [← hm] at hk
      show WakeIn (core (s.nodes.set s.notify (x.wake m s.calls))) x.next (c - m) _
      rw [core_set]
      show WakeIn ((core s.nodes).set s.notify (x.w - (x.n + m), x.next)) x.next (c - m) _
      rw [show x.w - (x.n + m) = x.w - x.n - m by omega]
      exact hk

theorem wakeIn_reachable {n : Nat} {tr : List Ev} {s : St} (h : Exec step (init n) tr s) {t c : Nat}
    (ht : s.ths[t]? = some (.waking c)) : ∃ k, WakeIn (core s.nodes) s.notify c k := by
  obtain ⟨hl, hc⟩ := counts_exec h
  have hr := ring_exec h
  have h1 := hc.waking t c ht
  have h2 := sumOn_le (f := PC.toWake) ht
  simp only [PC.toWake] at h2
  have h3 := hc.total
  have hne : s.nodes ≠ [] := by
    intro h0; rw [h0] at h3; simp only [sumOn] at h3; omega
  exact wakeIn_exists c s.nodes s.notify hr.path hr.next (hr.ptr hne).1 h1 (by omega)

/-- The continuation of an execution with `t` in the loop. -/
theorem wake_bound {s : St} {t c k : Nat} (hl : Locks s) (ht : s.ths[t]? = some (.waking c))
    (hw : WakeIn (core s.nodes) s.notify c k) {tr : List Ev} {s' : St} (h : Exec step s tr s') :
    Locks s' ∧ (Ev.notified t ∈ tr ∨ (tr.countP (Ev.isIssued t) ≤ k ∧ s'.ths[t]? = some .nExit) ∨
      ∃ c' k', s'.ths[t]? = some (.waking c') ∧ WakeIn (core s'.nodes) s'.notify c' k' ∧
        tr.countP (Ev.isIssued t) + k' = k) := by
  refine h.invariant (fun tr s' => Locks s' ∧ (Ev.notified t ∈ tr ∨
    (tr.countP (Ev.isIssued t) ≤ k ∧ s'.ths[t]? = some .nExit) ∨
      ∃ c' k', s'.ths[t]? = some (.waking c') ∧ WakeIn (core s'.nodes) s'.notify c' k' ∧
        tr.countP (Ev.isIssued t) + k' = k)) ?_ ?_
  · exact ⟨hl, .inr (.inr ⟨c, k, ht, hw, by simp⟩)⟩
  · rintro tr s1 ⟨u, a⟩ s2 es ⟨hl1, hcase⟩ hs
    have hst := step_sound hs
    refine ⟨locks_step hl1 hst, ?_⟩
    rcases hcase with hd | ⟨hk, hp⟩ | ⟨c', k', hp, hw', hk⟩
    · exact .inl (List.mem_append_left _ hd)
    · by_cases hut : u = t
      · subst hut
        left
        cases hst with
        | exit h hg =>
          rw [hp] at h; cases h; cases hg
          simp
        | userLock h _ => rw [hp] at h; cases h
        | userUnlock h _ => rw [hp] at h; cases h
        | goto h hg => rw [hp] at h; cases h; cases hg
        | enter h hg _ => rw [hp] at h; cases h; cases hg
        | leave h hg _ _ => rw [hp] at h; cases h; cases hg
        | leave0 h hg _ _ => rw [hp] at h; cases h; cases hg
        | first h _ => rw [hp] at h; cases h
        | join h _ _ _ => rw [hp] at h; cases h
        | advance h _ _ _ => rw [hp] at h; cases h
        | around h _ _ _ => rw [hp] at h; cases h
        | create h _ => rw [hp] at h; cases h
        | unlock h => rw [hp] at h; cases h
        | token h _ _ => rw [hp] at h; cases h
        | relock h _ => rw [hp] at h; cases h
        | decide0 h _ => rw [hp] at h; cases h
        | decide h _ _ => rw [hp] at h; cases h
        | wakeLast h _ _ _ => rw [hp] at h; cases h
        | wakeNext h _ _ _ => rw [hp] at h; cases h
      · obtain ⟨h1, _, _, h4⟩ := other_step hl1 hp rfl hut hst
        right; left
        refine ⟨?_, h1⟩
        rw [List.countP_append, h4]; omega
    · by_cases hut : u = t
      · subst hut
        obtain ⟨h1, h2⟩ := wake_step hp hw' hst
        have := wakeIn_pos hw'
        right
        rcases h2 with ⟨h2, h3⟩ | ⟨c2, h3, h4⟩
        · left
          refine ⟨?_, h3⟩
          rw [List.countP_append, h1]; omega
        · right
          refine ⟨c2, _, h3, h4, ?_⟩
          rw [List.countP_append, h1]; omega
      · obtain ⟨h1, h2, h3, h4⟩ := other_step hl1 hp rfl hut hst
        right; right
        refine ⟨c', k', h1, by rw [h2, h3]; exact hw', ?_⟩
        rw [List.countP_append, h4]; omega

end Verif.WinCv
