import Verif.Proof.WinCondVar

/-! # Ownership of the internal mutex and of the user lock -/

namespace Verif.WinCv

/-- The thread owns the internal mutex. -/
def PC.holds : PC → Bool
  | .wInit _ | .wLoop _ _ | .wNew _ _ | .wExit _ _ | .wAbort | .inTok _ _ | .inExpired _ | .inFailed _ | .nCheck _
  | .waking _ | .nExit => true
  | _ => false

/-- The thread is inside a wait and has not unlocked the user lock yet. -/
def PC.early : PC → Bool
  | .wTimer | .wEnter _ | .wInit _ | .wLoop _ _ | .wNew _ _ | .wExit _ _ | .wAbort | .wUnlock _ _ => true
  | _ => false

/-- The thread is inside a wait and has unlocked the user lock. -/
def PC.late : PC → Bool
  | .blocked _ _ | .gotTok _ _ | .inTok _ _ | .expired _ | .inExpired _ | .failed _ | .inFailed _ | .relock _ => true
  | _ => false

structure Locks (s : St) : Prop where
  own : ∀ (t : Nat) (pc : PC), s.ths[t]? = some pc → pc.holds = true → s.owner = some t
  owned : ∀ t, s.owner = some t → ∃ pc : PC, s.ths[t]? = some pc ∧ pc.holds = true
  early : ∀ (t : Nat) (pc : PC), s.ths[t]? = some pc → pc.early = true → s.user = some t
  late : ∀ (t : Nat) (pc : PC), s.ths[t]? = some pc → pc.late = true → s.user ≠ some t

theorem locks_init (n : Nat) : Locks (init n) where
  own t pc h hp := by rw [get_replicate h] at hp; cases hp
  owned t h := by cases h
  early t pc h hp := by rw [get_replicate h] at hp; cases hp
  late t pc h hp := by rw [get_replicate h] at hp; cases hp

/-- A move that does not touch the internal mutex. -/
theorem own_keep {s : St} (hi : Locks s) {t : Nat} {pc pc' : PC} (h : s.ths[t]? = some pc)
    (hh : pc'.holds = pc.holds) :
    (∀ (u : Nat) (x : PC), (s.ths.set t pc')[u]? = some x → x.holds = true → s.owner = some u) ∧
    (∀ u, s.owner = some u → ∃ x : PC, (s.ths.set t pc')[u]? = some x ∧ x.holds = true) := by
  constructor
  · intro u x hu hx
    rcases get_set_cases hu with ⟨rfl, rfl⟩ | ⟨_, hu⟩
    · exact hi.own _ _ h (by rw [← hh]; exact hx)
    · exact hi.own _ _ hu hx
  · intro u hu
    obtain ⟨x, hx, hp⟩ := hi.owned u hu
    by_cases htu : t = u
    · subst htu
      rw [h] at hx; cases hx
      exact ⟨pc', get_set_self h, by rw [hh]; exact hp⟩
    · exact ⟨x, by rw [get_set_ne htu]; exact hx, hp⟩

theorem own_enter {s : St} (hi : Locks s) {t : Nat} {pc pc' : PC} (h : s.ths[t]? = some pc)
    (ho : s.owner = none) (hh : pc'.holds = true) :
    (∀ (u : Nat) (x : PC), (s.ths.set t pc')[u]? = some x → x.holds = true → some t = some u) ∧
    (∀ u, some t = some u → ∃ x : PC, (s.ths.set t pc')[u]? = some x ∧ x.holds = true) := by
  constructor
  · intro u x hu hx
    rcases get_set_cases hu with ⟨rfl, rfl⟩ | ⟨_, hu⟩
    · rfl
    · have := hi.own _ _ hu hx
      rw [ho] at this; cases this
  · intro u hu
    cases hu
    exact ⟨pc', get_set_self h, hh⟩

theorem own_exit {s : St} (hi : Locks s) {t : Nat} {pc pc' : PC} (h : s.ths[t]? = some pc)
    (hp : pc.holds = true) (hh : pc'.holds = false) :
    (∀ (u : Nat) (x : PC), (s.ths.set t pc')[u]? = some x → x.holds = true → (none : Option Nat) = some u) ∧
    (∀ u, (none : Option Nat) = some u → ∃ x : PC, (s.ths.set t pc')[u]? = some x ∧ x.holds = true) := by
  constructor
  · intro u x hu hx
    rcases get_set_cases hu with ⟨rfl, rfl⟩ | ⟨htu, hu⟩
    · rw [hh] at hx; cases hx
    · have h1 := hi.own _ _ hu hx
      rw [hi.own _ _ h hp] at h1
      cases h1; exact absurd rfl htu
  · intro u hu; cases hu

/-- A move that does not touch the user lock. -/
theorem user_keep {s : St} (hi : Locks s) {t : Nat} {pc pc' : PC} (h : s.ths[t]? = some pc)
    (he : pc'.early = true → pc.early = true ∨ s.user = some t) (hl : pc'.late = true → pc.late = true) :
    (∀ (u : Nat) (x : PC), (s.ths.set t pc')[u]? = some x → x.early = true → s.user = some u) ∧
    (∀ (u : Nat) (x : PC), (s.ths.set t pc')[u]? = some x → x.late = true → s.user ≠ some u) := by
  constructor
  · intro u x hu hx
    rcases get_set_cases hu with ⟨rfl, rfl⟩ | ⟨_, hu⟩
    · rcases he hx with h1 | h1
      · exact hi.early _ _ h h1
      · exact h1
    · exact hi.early _ _ hu hx
  · intro u x hu hx
    rcases get_set_cases hu with ⟨rfl, rfl⟩ | ⟨_, hu⟩
    · exact hi.late _ _ h (hl hx)
    · exact hi.late _ _ hu hx

theorem locks_step {s s' : St} {t : Nat} {es : List Ev} (hi : Locks s) (h : Step s t s' es) : Locks s' := by
  cases h with
  | userLock h hu =>
    refine ⟨hi.own, hi.owned, ?_, ?_⟩
    · intro u x hx hp
      have := hi.early u x hx hp
      rw [hu] at this; cases this
    · intro u x hx hp he
      cases he
      rw [h] at hx; cases hx; cases hp
  | userUnlock h hu =>
    refine ⟨hi.own, hi.owned, ?_, ?_⟩
    · intro u x hx hp
      have := hi.early u x hx hp
      rw [hu] at this; cases this
      rw [h] at hx; cases hx; cases hp
    · intro u x hx hp he; cases he
  | @goto pc pc' es h hg =>
    obtain ⟨a, b⟩ := own_keep hi h (pc' := pc') (by cases hg <;> rfl)
    obtain ⟨c, d⟩ := user_keep hi h (pc' := pc') (by cases hg <;> intro hx <;> first | exact .inl rfl | exact .inr ‹_› | cases hx)
      (by cases hg <;> intro hx <;> first | rfl | cases hx)
    exact ⟨a, b, c, d⟩
  | @enter pc pc' h hg ho =>
    obtain ⟨a, b⟩ := own_enter hi h (pc' := pc') ho (by cases hg <;> rfl)
    obtain ⟨c, d⟩ := user_keep hi h (pc' := pc') (by cases hg <;> intro hx <;> first | exact .inl rfl | cases hx)
      (by cases hg <;> intro hx <;> first | rfl | cases hx)
    exact ⟨a, b, c, d⟩
  | @exit pc pc' es h hg =>
    obtain ⟨a, b⟩ := own_exit hi h (pc' := pc') (by cases hg <;> rfl) (by cases hg <;> rfl)
    obtain ⟨c, d⟩ := user_keep hi h (pc' := pc') (by cases hg <;> intro hx <;> first | exact .inl rfl | cases hx)
      (by cases hg <;> intro hx <;> first | rfl | cases hx)
    exact ⟨a, b, c, d⟩
  | first h hn =>
    obtain ⟨a, b⟩ := own_keep hi h (pc' := .wExit _ 0) rfl
    obtain ⟨c, d⟩ := user_keep hi h (pc' := .wExit _ 0) (fun _ => .inl rfl) (fun hx => by cases hx)
    exact ⟨a, b, c, d⟩
  | join h hx hn hw =>
    obtain ⟨a, b⟩ := own_keep hi h (pc' := .wExit _ _) rfl
    obtain ⟨c, d⟩ := user_keep hi h (pc' := .wExit _ _) (fun _ => .inl rfl) (fun hx => by cases hx)
    exact ⟨a, b, c, d⟩
  | advance h hx hn he => exact ⟨hi.own, hi.owned, hi.early, hi.late⟩
  | around h hx hn he =>
    obtain ⟨a, b⟩ := own_keep hi h (pc' := .wNew _ _) rfl
    obtain ⟨c, d⟩ := user_keep hi h (pc' := .wNew _ _) (fun _ => .inl rfl) (fun hx => by cases hx)
    exact ⟨a, b, c, d⟩
  | create h hx =>
    obtain ⟨a, b⟩ := own_keep hi h (pc' := .wExit _ _) rfl
    obtain ⟨c, d⟩ := user_keep hi h (pc' := .wExit _ _) (fun _ => .inl rfl) (fun hx => by cases hx)
    exact ⟨a, b, c, d⟩
  | unlock h =>
    obtain ⟨a, b⟩ := own_keep hi h (pc' := .blocked _ _) rfl
    have hu := hi.early _ _ h rfl
    refine ⟨a, b, ?_, fun u x _ _ he => by cases he⟩
    intro u x hx hp
    rcases get_set_cases hx with ⟨rfl, rfl⟩ | ⟨htu, hx⟩
    · cases hp
    · have := hi.early u x hx hp
      rw [hu] at this; cases this; exact absurd rfl htu
  | token h hx ht =>
    obtain ⟨a, b⟩ := own_keep hi h (pc' := .gotTok _ _) rfl
    obtain ⟨c, d⟩ := user_keep hi h (pc' := .gotTok _ _) (fun hx => by cases hx) (fun _ => rfl)
    exact ⟨a, b, c, d⟩
  | leave h hl hx hn =>
    obtain ⟨a, b⟩ := own_exit hi h (pc' := .relock _) (by cases hl <;> rfl) rfl
    obtain ⟨c, d⟩ := user_keep hi h (pc' := .relock _) (fun hx => by cases hx) (fun _ => by cases hl <;> rfl)
    exact ⟨a, b, c, d⟩
  | leave0 h hl hx hn =>
    obtain ⟨a, b⟩ := own_exit hi h (pc' := .relock _) (by cases hl <;> rfl) rfl
    obtain ⟨c, d⟩ := user_keep hi h (pc' := .relock _) (fun hx => by cases hx) (fun _ => by cases hl <;> rfl)
    exact ⟨a, b, c, d⟩
  | relock h hu =>
    obtain ⟨a, b⟩ := own_keep hi h (pc' := .idle) rfl
    refine ⟨a, b, ?_, ?_⟩
    · intro u x hx hp
      rcases get_set_cases hx with ⟨rfl, rfl⟩ | ⟨htu, hx⟩
      · cases hp
      · have := hi.early u x hx hp
        rw [hu] at this; cases this
    · intro u x hx hp he
      cases he
      rcases get_set_cases hx with ⟨_, rfl⟩ | ⟨htu, hx⟩
      · cases hp
      · exact htu rfl
  | decide0 h h0 =>
    obtain ⟨a, b⟩ := own_keep hi h (pc' := .nExit) rfl
    obtain ⟨c, d⟩ := user_keep hi h (pc' := .nExit) (fun hx => by cases hx) (fun hx => by cases hx)
    exact ⟨a, b, c, d⟩
  | decide h h0 hc =>
    obtain ⟨a, b⟩ := own_keep hi h (pc' := .waking _) rfl
    obtain ⟨c, d⟩ := user_keep hi h (pc' := .waking _) (fun hx => by cases hx) (fun hx => by cases hx)
    exact ⟨a, b, c, d⟩
  | wakeLast h hx hm hc =>
    obtain ⟨a, b⟩ := own_keep hi h (pc' := .nExit) rfl
    obtain ⟨c, d⟩ := user_keep hi h (pc' := .nExit) (fun hx => by cases hx) (fun hx => by cases hx)
    exact ⟨a, b, c, d⟩
  | @wakeNext c x m h hx hm hc =>
    obtain ⟨a, b⟩ := own_keep hi h (pc' := .waking (c - m)) rfl
    obtain ⟨c', d⟩ := user_keep hi h (pc' := .waking (c - m)) (fun hx => by cases hx) (fun hx => by cases hx)
    exact ⟨a, b, c', d⟩

theorem locks_exec {n : Nat} {tr : List Ev} {s : St} (h : Exec step (init n) tr s) : Locks s :=
  h.invariant' Locks (locks_init n) (fun _ l _ _ hi hs => by obtain ⟨t, a⟩ := l; exact locks_step hi (step_sound hs))

end Verif.WinCv
