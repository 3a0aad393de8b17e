import Verif.Proof.AtomicObject
import Verif.Proof.MonitorSim
import Verif.Proof.MonitorWake

/-! What the results of the operations say about the data of the monitor, and where internal runs end. -/

namespace Verif.Monitor

open Verif.Atomic (Kind Op Ev Obj One SetReset Linearizable Observed OInv)

variable {D S : Type}

/-- Some execution with trace `tr` leads to a state that corresponds to `a`. -/
def Passes (M : Mon D S) (n : Nat) (tr : List (Ev S)) (a : Atomic.St D S) : Prop :=
  ∃ s, Exec (step M) (init M n) tr s ∧ s.abs = a

theorem oinv_exec {M : Mon D S} {n : Nat} {tr : List (Ev S)} {s : St D S} (h : Exec (step M) (init M n) tr s) :
    OInv M.obj (Passes M n) tr s.abs := by
  induction h with
  | init =>
    have : (init M n).abs = Atomic.init M.obj n := by simp [St.abs, init, Atomic.init, Mon.obj, PC.abs]
    rw [this]
    exact Atomic.oinv_init _ _ n
  | snoc hex hs ih =>
    cases sim_step (inv_exec hex) hs with
    | stutter h1 h2 => rw [h1, h2, List.append_nil]; exact ih
    | one l hl => exact Atomic.oinv_step ih ⟨_, hex, rfl⟩ (Atomic.step_cases hl)

theorem observed {M : Mon D S} {n : Nat} {pre post : List (Ev S)} {t : Nat} {k : Kind} {b : Bool} {s : St D S}
    (h : Exec (step M) (init M n) (pre ++ .ret t (.acq k) b :: post) s) : Observed M.obj (Passes M n) pre t k b :=
  (oinv_exec h).past pre t k b post rfl

/-- No thread can take a step by itself. -/
def Quiescent (M : Mon D S) (s : St D S) : Prop := ∀ t (a : Act S), a.internal = true → step M s (t, a) = none

theorem quiescent_inactive {M : Mon D S} {s : St D S} (I : Inv M s) (q : Quiescent M s) : s.ths.countP PC.active = 0 := by
  by_cases h : 0 < s.ths.countP PC.active
  · obtain ⟨j, a, s', es, ha, hs⟩ := can_move I h
    rw [q j a ha] at hs
    cases hs
  · omega

/-- When no thread can step, every thread is outside or waits on the condition variable. -/
theorem quiescent_pcs {M : Mon D S} {s : St D S} (I : Inv M s) (q : Quiescent M s) {t : Nat} {pc : PC S}
    (h : s.ths[t]? = some pc) : pc = .idle ∨ ∃ k, pc = .asleep k := by
  have inact : ∀ (u : Nat) (p : PC S), s.ths[u]? = some p → p.active = false := by
    intro u p hu
    cases hp : p.active
    · rfl
    · have h1 := countP_pos_of_get (p := PC.active) hu hp
      have h2 := quiescent_inactive I q
      omega
  have hown : s.owner = none := by
    cases ho : s.owner with
    | none => rfl
    | some o =>
      obtain ⟨p, hp⟩ := I.owner o ho
      have hh := (I.own o p hp).mpr ho
      have ha := inact o p hp
      cases p with
      | sig x =>
        have hq := q o .go rfl
        cases hn : M.notify x s.d <;> simp [step, hp, hn] at hq
      | leave op res =>
        have hq := q o .go rfl
        simp [step, hp] at hq
      | early k =>
        have hq := q o .go rfl
        simp [step, hp] at hq
      | _ => first | (cases hh; done) | (cases ha; done)
  have ha := inact t pc h
  have hnh : pc.holding = false := by
    cases hp : pc.holding
    · rfl
    · have := (I.own t pc h).mp hp
      rw [hown] at this
      cases this
  cases pc with
  | idle => exact .inl rfl
  | asleep k => exact .inr ⟨k, rfl⟩
  | want k =>
    have hq := q t .go rfl
    simp [step, h, hown] at hq
  | wantSig x =>
    have hq := q t .go rfl
    simp [step, h, hown] at hq
  | _ => first | (cases hnh; done) | (cases ha; done)

theorem internal_exec {M : Mon D S} {n : Nat} {tr : List (Ev S)} {s s' : St D S} {k : Nat}
    (h : Exec (step M) (init M n) tr s) (hi : Internal M s k s') : ∃ tr', Exec (step M) (init M n) tr' s' := by
  induction hi with
  | refl => exact ⟨tr, h⟩
  | step _ _ hs ih => obtain ⟨tr', h'⟩ := ih; exact ⟨_, h'.snoc hs⟩

/-- Internal runs can be extended until nobody can step. -/
theorem internal_ends {M : Mon D S} (s : St D S) : ∃ k s', Internal M s k s' ∧ Quiescent M s' := by
  have ext : ∀ (m : Nat) (k : Nat) (s' : St D S), Internal M s k s' → weight s'.ths ≤ m →
      ∃ k s', Internal M s k s' ∧ Quiescent M s' := by
    intro m
    induction m with
    | zero =>
      intro k s' h hw
      refine ⟨k, s', h, ?_⟩
      intro t a ha
      cases hs : step M s' (t, a) with
      | none => rfl
      | some r =>
        obtain ⟨s'', es⟩ := r
        have := internal_decreases ha hs
        omega
    | succ m ih =>
      intro k s' h hw
      by_cases hq : Quiescent M s'
      · exact ⟨k, s', h, hq⟩
      · simp only [Quiescent, Classical.not_forall] at hq
        obtain ⟨t, a, ha, hs⟩ := hq
        cases hs' : step M s' (t, a) with
        | none => exact absurd hs' hs
        | some r =>
          obtain ⟨s'', es⟩ := r
          have := internal_decreases ha hs'
          exact ih (k + 1) s'' (h.step ha hs') (by omega)
  exact ext (weight s.ths) 0 s (.refl s) (Nat.le_refl _)

theorem tokens_quiescent {M : Mon D S} {avail : D → Nat} (A : Tokens M avail) (pos : ∀ d, M.ready d = true → 0 < avail d)
    {n : Nat} {tr : List (Ev S)} {s : St D S} (h : Exec (step M) (init M n) tr s) (q : Quiescent M s) {t : Nat} {k : Kind}
    (ht : s.ths[t]? = some (.asleep k)) : M.ready s.d = false := by
  have h1 := tok_exec A h (countP_pos_of_get (p := PC.isAsleep) ht rfl)
  have h2 := quiescent_inactive (inv_exec h) q
  cases hr : M.ready s.d
  · rfl
  · have := pos s.d hr
    omega

theorem broadcast_quiescent {M : Mon D S} (A : Broadcast M)
    {n : Nat} {tr : List (Ev S)} {s : St D S} (h : Exec (step M) (init M n) tr s) (q : Quiescent M s) {t : Nat} {k : Kind}
    (ht : s.ths[t]? = some (.asleep k)) : M.ready s.d = false := by
  have h2 := quiescent_inactive (inv_exec h) q
  cases hr : M.ready s.d
  · rfl
  · have h1 := (bro_exec A h).1 hr (countP_pos_of_get (p := PC.isAsleep) ht rfl)
    have h3 : s.ths.countP PC.notifies ≤ s.ths.countP PC.active := countP_le (by
      intro pc hp; cases pc <;> first | rfl | cases hp)
    omega

/-- Wrapping 32-bit arithmetic agrees with the natural numbers while the permits fit. -/
theorem counter_of_uint32 {c : Kind → Bool} {i : UInt32} {n : Nat} {tr : List (Ev One)} {a : Atomic.St UInt32 One}
    (h : Exec (Atomic.step (semaphore c i).obj) (Atomic.init (semaphore c i).obj n) tr a)
    (hb : i.toNat + Atomic.signalsCalled tr < 2 ^ 32) :
    Exec (Atomic.step (Atomic.counterObj i.toNat)) (Atomic.init (Atomic.counterObj i.toNat) n) tr ⟨a.d.toNat, a.ths⟩ := by
  induction h with
  | init => exact Exec.init
  | @snoc tr s s' l es hex hs ih =>
    have hle : Atomic.signalsCalled (tr ++ es) = Atomic.signalsCalled tr + Atomic.signalsCalled es := List.countP_append
    have ih := ih (by omega)
    have hc := Atomic.cinv_exec ih
    suffices hstep : Atomic.step (Atomic.counterObj i.toNat) ⟨s.d.toNat, s.ths⟩ l = some (⟨s'.d.toNat, s'.ths⟩, es) from
      ih.snoc hstep
    obtain ⟨t, act⟩ := l
    unfold Atomic.step at hs ⊢
    simp only at hs ⊢
    split at hs
    · cases hs
    next st ht =>
    split at hs
    · cases hs; rfl
    · cases hs; rfl
    · next x e =>
      cases hs
      have hp := countP_pos_of_get (p := Atomic.Status.pendingSig) ht rfl
      have hd : (s.d + 1).toNat = s.d.toNat + 1 := by
        have := hc.1
        simp only at this
        rw [UInt32.toNat_add]
        simp only [UInt32.toNat_one]
        omega
      cases x
      simp only [semaphore, Mon.obj, Atomic.counterObj, hd]
    · next k e =>
      have hr : (Atomic.counterObj i.toNat).ready s.d.toNat = (semaphore c i).obj.ready s.d := by
        by_cases h0 : s.d = 0
        · simp [Atomic.counterObj, semaphore, Mon.obj, h0]
        · have : s.d.toNat ≠ 0 := fun h => h0 (UInt32.toNat_inj.mp (by simpa using h))
          have h1 : 0 < s.d.toNat := by omega
          simp [Atomic.counterObj, semaphore, Mon.obj, h0, h1]
      simp only [hr]
      split at hs
      · next hrd =>
        cases hs
        have h0 : s.d.toNat ≠ 0 := by
          intro h
          have : s.d = 0 := UInt32.toNat_inj.mp (by simpa using h)
          simp [semaphore, Mon.obj, this] at hrd
        have hd : (s.d - 1).toNat = s.d.toNat - 1 := by
          rw [UInt32.toNat_sub_of_le _ _ (by rw [UInt32.le_iff_toNat_le]; simp only [UInt32.toNat_one]; omega)]
          rfl
        simp only [hrd, if_true]
        simp only [Atomic.counterObj, semaphore, Mon.obj, hd]
      · next hrd =>
        split at hs
        · next hm =>
          cases hs
          simp only [hrd, hm, if_true, Bool.false_eq_true, if_false]
        · cases hs
    · cases hs; rfl
    · cases hs; rfl
    · cases hs

end Verif.Monitor
