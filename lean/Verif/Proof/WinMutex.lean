import Verif.Base.Count
import Verif.Proof.WinMutexWord

/-! Invariants of the Windows mutex. -/

namespace Verif.WinMutex

def PC.owns : PC → Bool
  | .owner | .unlAdd => true
  | _ => false
def PC.setting : PC → Bool
  | .unlSet => true
  | _ => false
def PC.flagging : PC → Bool
  | .unlBts => true
  | _ => false

def Th.owns (th : Th) : Bool := th.pc.owns
def Th.setting (th : Th) : Bool := th.pc.setting
def Th.flagging (th : Th) : Bool := th.pc.flagging

structure Inv (tr : List Ev) (s : St) : Prop where
  len : s.ths.length < 1073741824
  lock : L s.word.val = s.ths.countP Th.owns
  cnt : C s.word.val = s.ths.countP Th.blocked
  flag : F s.word.val = b2n s.ev + s.ths.countP Th.setting + s.ths.countP Th.clearing
  wake : L s.word.val = 0 → 0 < C s.word.val → F s.word.val = 1 ∨ 0 < s.ths.countP Th.flagging
  pend : pending tr = (b2n s.ev : Int)

theorem inv_init {n : Nat} (hn : n < 1073741824) : Inv [] (init n) where
  len := by simpa [init] using hn
  lock := by simp only [init]; rw [countP_replicate_false rfl, L_zero]
  cnt := by simp only [init]; rw [countP_replicate_false rfl, C_zero]
  flag := by simp only [init]; rw [countP_replicate_false rfl, countP_replicate_false rfl, F_zero]; rfl
  wake := by intro _ h; simp only [init] at h; rw [C_zero] at h; omega
  pend := rfl

theorem blocked_lt {s : St} {t : Nat} {th : Th} (hth : s.ths[t]? = some th) :
    s.ths.countP Th.blocked + b2n (!th.blocked) ≤ s.ths.length := by
  have hd := countP_add_le_length (p := Th.blocked) (q := fun x => !x.blocked) (l := s.ths)
    (by intro a h1 h2; rw [h1] at h2; cases h2)
  have := b2n_le_countP (p := fun x : Th => !x.blocked) hth
  omega

theorem inv_move {tr es : List Ev} {s : St} {t : Nat} {th th' : Th} {w' : Loc UInt32} {e' : Bool} {m' : View} {f' : Nat}
    (I : Inv tr s) (hth : s.ths[t]? = some th)
    (hL : L w'.val + b2n th.owns = L s.word.val + b2n th'.owns)
    (hC : C w'.val + b2n th.blocked = C s.word.val + b2n th'.blocked)
    (hF : F w'.val + b2n th.setting + b2n th.clearing + b2n s.ev =
      F s.word.val + b2n th'.setting + b2n th'.clearing + b2n e')
    (hW : L w'.val = 0 → 0 < C w'.val → F w'.val = 1 ∨ b2n th.flagging < s.ths.countP Th.flagging + b2n th'.flagging)
    (hP : es.foldl pendingUpd (b2n s.ev : Int) = (b2n e' : Int)) :
    Inv (tr ++ es) ⟨w', e', m', s.ths.set t th', f'⟩ := by
  have c1 := countP_set (p := Th.owns) (b := th') hth
  have c2 := countP_set (p := Th.blocked) (b := th') hth
  have c3 := countP_set (p := Th.setting) (b := th') hth
  have c4 := countP_set (p := Th.clearing) (b := th') hth
  have c5 := countP_set (p := Th.flagging) (b := th') hth
  have i1 := I.lock
  have i2 := I.cnt
  have i3 := I.flag
  refine ⟨by simpa using I.len, ?_, ?_, ?_, ?_, ?_⟩
  · simp only; omega
  · simp only; omega
  · simp only; omega
  · simp only; intro h1 h2; have := hW h1 h2; omega
  · have := I.pend
    simp only [pending, List.foldl_append] at this ⊢
    rw [this]; exact hP

/-- A step that touches neither the word nor the event. -/
theorem inv_goto {tr es : List Ev} {s : St} {t : Nat} {th th' : Th} {f' : Nat} (I : Inv tr s)
    (hth : s.ths[t]? = some th)
    (h1 : th'.owns = th.owns) (h2 : th'.blocked = th.blocked) (h3 : th'.setting = th.setting)
    (h4 : th'.clearing = th.clearing) (h5 : th'.flagging = th.flagging)
    (hP : ∀ x, es.foldl pendingUpd x = x) :
    Inv (tr ++ es) { s with ths := s.ths.set t th', fresh := f' } := by
  refine inv_move I hth ?_ ?_ ?_ ?_ (hP _)
  · rw [h1]
  · rw [h2]
  · rw [h3, h4]
  · intro a b
    rw [h5]
    have := I.wake a b
    omega

macro "wgoto" I:ident hth:ident : tactic => `(tactic|
  exact inv_goto $I $hth rfl rfl rfl rfl rfl (fun _ => rfl))

theorem step_inv {tr es : List Ev} {s s' : St} {l : Nat × Act} (I : Inv tr s) (h : step s l = some (s', es)) :
    Inv (tr ++ es) s' := by
  obtain ⟨t, a⟩ := l
  have i0 := I.len
  have i1 := I.lock
  have i2 := I.cnt
  have i3 := I.flag
  have i4 := I.wake
  have hL2 := L_lt s.word.val
  have hF2 := F_lt s.word.val
  unfold step at h
  simp only at h
  split at h
  · cases h
  next th hth =>
  obtain ⟨pc, v⟩ := th
  have hbl := blocked_lt hth
  have g1 := b2n_le_countP (p := Th.owns) hth
  have g2 := b2n_le_countP (p := Th.blocked) hth
  have g3 := b2n_le_countP (p := Th.setting) hth
  have g4 := b2n_le_countP (p := Th.clearing) hth
  have g5 := b2n_le_countP (p := Th.flagging) hth
  simp only at h
  split at h
  · cases h; wgoto I hth
  · cases h; wgoto I hth
  · cases h; wgoto I hth
  · cases h; wgoto I hth
  · -- bit_test_and_set of the lock bit
    next k =>
    obtain ⟨o1, o2, o3⟩ := orLock s.word.val
    split at h
    · next hl =>
      rw [isLocked_iff] at hl
      simp only [Option.some.injEq, Prod.mk.injEq] at h
      obtain ⟨rfl, rfl⟩ := h
      cases k
      all_goals
        refine inv_move I hth ?_ ?_ ?_ ?_ rfl
        · show L (s.word.val ||| lockFlag) + 0 = _ + 0; rw [o1, hl]
        · show C (s.word.val ||| lockFlag) + 0 = _ + 0; rw [o3]
        · show F (s.word.val ||| lockFlag) + 0 + 0 + _ = _ + 0 + 0 + _; rw [o2]
        · show L (s.word.val ||| lockFlag) = 0 → _; rw [o1]; intro h; cases h
    · next hl =>
      rw [Bool.not_eq_true, isLocked_false] at hl
      simp only [Option.some.injEq, Prod.mk.injEq] at h
      obtain ⟨rfl, rfl⟩ := h
      refine inv_move I hth ?_ ?_ ?_ ?_ rfl
      · show L (s.word.val ||| lockFlag) + 0 = _ + 1; rw [o1, hl]
      · show C (s.word.val ||| lockFlag) + 0 = _ + 0; rw [o3]
      · show F (s.word.val ||| lockFlag) + 0 + 0 + _ = _ + 0 + 0 + _; rw [o2]
      · show L (s.word.val ||| lockFlag) = 0 → _; rw [o1]; intro h; cases h
  · cases h; wgoto I hth
  · cases h; wgoto I hth
  · cases h; wgoto I hth
  · -- mark_waiting_and_try_lock
    next k old =>
    change _ + 1 ≤ _ at hbl
    split at h
    · next heq =>
      subst heq
      split at h
      · next hl =>
        rw [isLocked_iff] at hl
        obtain ⟨o1, o2, o3⟩ := markNew_locked hl (by omega)
        simp only [Option.some.injEq, Prod.mk.injEq] at h
        obtain ⟨rfl, rfl⟩ := h
        refine inv_move I hth ?_ ?_ ?_ ?_ rfl
        · show L (markNew s.word.val) + 0 = _ + 0; rw [o1, hl]
        · show C (markNew s.word.val) + 0 = _ + 1; rw [o3]
        · show F (markNew s.word.val) + 0 + 0 + _ = _ + 0 + 0 + _; rw [o2]
        · show L (markNew s.word.val) = 0 → _; rw [o1]; intro h; cases h
      · next hl =>
        rw [Bool.not_eq_true, isLocked_false] at hl
        obtain ⟨o1, o2, o3⟩ := markNew_free hl
        simp only [Option.some.injEq, Prod.mk.injEq] at h
        obtain ⟨rfl, rfl⟩ := h
        refine inv_move I hth ?_ ?_ ?_ ?_ rfl
        · show L (markNew s.word.val) + 0 = _ + 1; rw [o1, hl]
        · show C (markNew s.word.val) + 0 = _ + 0; rw [o3]
        · show F (markNew s.word.val) + 0 + 0 + _ = _ + 0 + 0 + _; rw [o2]
        · show L (markNew s.word.val) = 0 → _; rw [o1]; intro h; cases h
    · cases h; wgoto I hth
  · cases h; wgoto I hth
  · -- the event releases a thread
    split at h
    · next hev =>
      simp only [Option.some.injEq, Prod.mk.injEq] at h
      obtain ⟨rfl, rfl⟩ := h
      refine inv_move I hth ?_ ?_ ?_ ?_ ?_
      · rfl
      · rfl
      · show F s.word.val + 0 + 0 + b2n s.ev = F s.word.val + 0 + 1 + 0; rw [hev]; rfl
      · intro a b
        have := i4 a b
        show _ ∨ 0 < _ + 0
        omega
      · rw [hev]; rfl
    · cases h
  · cases h; wgoto I hth
  · cases h; wgoto I hth
  · -- clear_waiting_and_try_lock
    next k old =>
    change 1 ≤ _ at g2
    change 1 ≤ _ at g4
    split at h
    · next heq =>
      subst heq
      split at h
      · next hl =>
        rw [isLocked_iff] at hl
        obtain ⟨o1, o2, o3⟩ := clrNew_locked hl
        simp only [Option.some.injEq, Prod.mk.injEq] at h
        obtain ⟨rfl, rfl⟩ := h
        refine inv_move I hth ?_ ?_ ?_ ?_ rfl
        · show L (clrNew s.word.val) + 0 = _ + 0; rw [o1, hl]
        · show C (clrNew s.word.val) + 1 = _ + 1; rw [o3]
        · show F (clrNew s.word.val) + 0 + 1 + _ = _ + 0 + 0 + _; rw [o2]; omega
        · show L (clrNew s.word.val) = 0 → _; rw [o1]; intro h; cases h
      · next hl =>
        rw [Bool.not_eq_true, isLocked_false] at hl
        obtain ⟨o1, o2, o3⟩ := clrNew_free hl (by omega)
        simp only [Option.some.injEq, Prod.mk.injEq] at h
        obtain ⟨rfl, rfl⟩ := h
        refine inv_move I hth ?_ ?_ ?_ ?_ rfl
        · show L (clrNew s.word.val) + 0 = _ + 1; rw [o1, hl]
        · show C (clrNew s.word.val) + 1 = _ + 0; rw [o3]; omega
        · show F (clrNew s.word.val) + 0 + 1 + _ = _ + 0 + 0 + _; rw [o2]; omega
        · show L (clrNew s.word.val) = 0 → _; rw [o1]; intro h; cases h
    · cases h; wgoto I hth
  · cases h; wgoto I hth
  · -- deregistration
    next k thr =>
    change 1 ≤ _ at g2
    obtain ⟨o1, o2, o3⟩ := subOne (w := s.word.val) (by omega)
    simp only [Option.some.injEq, Prod.mk.injEq] at h
    obtain ⟨rfl, rfl⟩ := h
    refine inv_move I hth ?_ ?_ ?_ ?_ ?_
    · show L (s.word.val - 1) + 0 = _ + 0; rw [o1]
    · show C (s.word.val - 1) + 1 = _ + 0; rw [o3]; omega
    · show F (s.word.val - 1) + 0 + 0 + _ = _ + 0 + 0 + _; rw [o2]
    · show L (s.word.val - 1) = 0 → 0 < C (s.word.val - 1) → F (s.word.val - 1) = 1 ∨ 0 < _ + 0
      rw [o1, o2, o3]; intro a b; have := i4 a (by omega); omega
    · cases thr <;> rfl
  · change 1 ≤ _ at g2
    obtain ⟨o1, o2, o3⟩ := subOne (w := s.word.val) (by omega)
    simp only [Option.some.injEq, Prod.mk.injEq] at h
    obtain ⟨rfl, rfl⟩ := h
    refine inv_move I hth ?_ ?_ ?_ ?_ rfl
    · show L (s.word.val - 1) + 0 = _ + 0; rw [o1]
    · show C (s.word.val - 1) + 1 = _ + 0; rw [o3]; omega
    · show F (s.word.val - 1) + 0 + 0 + _ = _ + 0 + 0 + _; rw [o2]
    · show L (s.word.val - 1) = 0 → 0 < C (s.word.val - 1) → F (s.word.val - 1) = 1 ∨ 0 < _ + 0
      rw [o1, o2, o3]; intro a b; have := i4 a (by omega); omega
  · -- unlock
    change 1 ≤ _ at g1
    have hl : L s.word.val = 1 := by omega
    obtain ⟨o1, o2, o3⟩ := addLock hl
    simp only [Option.some.injEq, Prod.mk.injEq] at h
    obtain ⟨rfl, rfl⟩ := h
    have hcond : (!isFlagged s.word.val && decide (s.word.val > lockFlag)) = true ∨
        (¬ (!isFlagged s.word.val && decide (s.word.val > lockFlag)) = true) ∧ (0 < C s.word.val → F s.word.val = 1) := by
      by_cases hc : (!isFlagged s.word.val && decide (s.word.val > lockFlag)) = true
      · exact Or.inl hc
      · right
        refine ⟨hc, ?_⟩
        intro hpos
        cases hf : isFlagged s.word.val
        · exfalso
          apply hc
          rw [hf, (gt_lock_iff hl (isFlagged_false.mp hf)).mpr hpos]
          rfl
        · exact isFlagged_iff.mp hf
    rcases hcond with hc | ⟨hc, hfl⟩
    · rw [if_pos hc]
      refine inv_move I hth ?_ ?_ ?_ ?_ rfl
      · show L (s.word.val + lockFlag) + 1 = _ + 0; rw [o1, hl]
      · show C (s.word.val + lockFlag) + 0 = _ + 0; rw [o3]
      · show F (s.word.val + lockFlag) + 0 + 0 + _ = _ + 0 + 0 + _; rw [o2]
      · intro _ _; right; show 0 < _ + 1; omega
    · rw [if_neg hc]
      refine inv_move I hth ?_ ?_ ?_ ?_ rfl
      · show L (s.word.val + lockFlag) + 1 = _ + 0; rw [o1, hl]
      · show C (s.word.val + lockFlag) + 0 = _ + 0; rw [o3]
      · show F (s.word.val + lockFlag) + 0 + 0 + _ = _ + 0 + 0 + _; rw [o2]
      · show _ → 0 < C (s.word.val + lockFlag) → F (s.word.val + lockFlag) = 1 ∨ _
        rw [o2, o3]; intro _ hp; exact Or.inl (hfl hp)
  · -- bit_test_and_set of the event bit
    obtain ⟨o1, o2, o3⟩ := orFlag s.word.val
    simp only [Option.some.injEq, Prod.mk.injEq] at h
    obtain ⟨rfl, rfl⟩ := h
    cases hf : isFlagged s.word.val
    · rw [isFlagged_false] at hf
      refine inv_move I hth ?_ ?_ ?_ ?_ rfl
      · show L (s.word.val ||| eventFlag) + 0 = _ + 0; rw [o1]
      · show C (s.word.val ||| eventFlag) + 0 = _ + 0; rw [o3]
      · show F (s.word.val ||| eventFlag) + 0 + 0 + _ = _ + 1 + 0 + _; rw [o2, hf]
      · intro _ _; left; exact o2
    · rw [isFlagged_iff] at hf
      refine inv_move I hth ?_ ?_ ?_ ?_ rfl
      · show L (s.word.val ||| eventFlag) + 0 = _ + 0; rw [o1]
      · show C (s.word.val ||| eventFlag) + 0 = _ + 0; rw [o3]
      · show F (s.word.val ||| eventFlag) + 0 + 0 + _ = _ + 0 + 0 + _; rw [o2, hf]
      · intro _ _; left; exact o2
  · -- SetEvent
    change 1 ≤ _ at g3
    have hev : s.ev = false := by
      cases h : s.ev
      · rfl
      · rw [h, b2n_true] at i3; omega
    simp only [Option.some.injEq, Prod.mk.injEq] at h
    obtain ⟨rfl, rfl⟩ := h
    refine inv_move I hth ?_ ?_ ?_ ?_ ?_
    · rfl
    · rfl
    · show F s.word.val + 1 + 0 + b2n s.ev = F s.word.val + 0 + 0 + 1; rw [hev]; rfl
    · intro a b
      have := i4 a b
      show _ ∨ 0 < _ + 0
      omega
    · rw [hev]; rfl
  · cases h

theorem inv_exec {n : Nat} (hn : n < 1073741824) {tr : List Ev} {s : St} (h : Exec step (init n) tr s) : Inv tr s :=
  Exec.invariant Inv (inv_init hn) (fun _ _ _ _ _ I hs => step_inv I hs) h

/-! ## Ownership according to the trace -/

theorem holds_append (tr es : List Ev) (t : Nat) : holds (tr ++ es) t = es.foldl (holdsUpd t) (holds tr t) := by
  simp [holds, List.foldl_append]

/-- The specification agrees with the program counters. -/
def Agree (tr : List Ev) (s : St) : Prop :=
  ∀ t, holds tr t = (match s.ths[t]? with | some th => th.owns | none => false)

theorem agree_init (n : Nat) : Agree [] (init n) := by
  intro t
  simp only [holds, init, List.foldl_nil, List.getElem?_replicate]
  split
  · next h => split at h <;> cases h; rfl
  · rfl

theorem agree_move {tr es : List Ev} {s : St} {w' : Loc UInt32} {e' : Bool} {m' : View} {f' : Nat} {t : Nat} {th th' : Th}
    (A : Agree tr s) (hth : s.ths[t]? = some th)
    (hself : es.foldl (holdsUpd t) th.owns = th'.owns)
    (hother : ∀ u b, u ≠ t → es.foldl (holdsUpd u) b = b) :
    Agree (tr ++ es) ⟨w', e', m', s.ths.set t th', f'⟩ := by
  intro u
  rw [holds_append, A u]
  by_cases h : t = u
  · subst h
    simp only [get_set_self hth, hth, hself]
  · simp only [get_set_ne h, hother u _ (Ne.symm h)]

theorem agree_step (tr : List Ev) (s : St) (l : Nat × Act) (s' : St) (es : List Ev)
    (A : Agree tr s) (h : step s l = some (s', es)) : Agree (tr ++ es) s' := by
  obtain ⟨t, a⟩ := l
  unfold step at h
  simp only at h
  split at h
  · cases h
  next th hth =>
  obtain ⟨pc, view⟩ := th
  simp only at h
  have hne : ∀ u : Nat, u ≠ t → ¬ t = u := fun u hu => Ne.symm hu
  split at h
  · cases h; exact agree_move A hth rfl (fun _ _ _ => rfl)
  · cases h; exact agree_move A hth rfl (fun _ _ _ => rfl)
  · cases h; exact agree_move A hth rfl (fun _ _ _ => rfl)
  · cases h; exact agree_move A hth rfl (fun _ _ _ => rfl)
  · next k =>
    split at h
    · simp only [Option.some.injEq, Prod.mk.injEq] at h
      obtain ⟨rfl, rfl⟩ := h
      cases k <;> exact agree_move A hth rfl (fun _ _ _ => rfl)
    · simp only [Option.some.injEq, Prod.mk.injEq] at h
      obtain ⟨rfl, rfl⟩ := h
      exact agree_move A hth (by simp [holdsUpd, Th.owns, PC.owns]) (fun u b hu => by simp [holdsUpd, hne u hu])
  · cases h; exact agree_move A hth rfl (fun _ _ _ => rfl)
  · cases h; exact agree_move A hth rfl (fun _ _ _ => rfl)
  · cases h; exact agree_move A hth rfl (fun _ _ _ => rfl)
  · split at h
    · split at h
      · simp only [Option.some.injEq, Prod.mk.injEq] at h
        obtain ⟨rfl, rfl⟩ := h
        exact agree_move A hth rfl (fun _ _ _ => rfl)
      · simp only [Option.some.injEq, Prod.mk.injEq] at h
        obtain ⟨rfl, rfl⟩ := h
        exact agree_move A hth (by simp [holdsUpd, Th.owns, PC.owns]) (fun u b hu => by simp [holdsUpd, hne u hu])
    · cases h; exact agree_move A hth rfl (fun _ _ _ => rfl)
  · cases h; exact agree_move A hth rfl (fun _ _ _ => rfl)
  · split at h
    · cases h; exact agree_move A hth rfl (fun _ _ _ => rfl)
    · cases h
  · cases h; exact agree_move A hth rfl (fun _ _ _ => rfl)
  · cases h; exact agree_move A hth rfl (fun _ _ _ => rfl)
  · split at h
    · split at h
      · simp only [Option.some.injEq, Prod.mk.injEq] at h
        obtain ⟨rfl, rfl⟩ := h
        exact agree_move A hth rfl (fun _ _ _ => rfl)
      · simp only [Option.some.injEq, Prod.mk.injEq] at h
        obtain ⟨rfl, rfl⟩ := h
        exact agree_move A hth (by simp [holdsUpd, Th.owns, PC.owns]) (fun u b hu => by simp [holdsUpd, hne u hu])
    · cases h; exact agree_move A hth rfl (fun _ _ _ => rfl)
  · cases h; exact agree_move A hth rfl (fun _ _ _ => rfl)
  · next k thr =>
    simp only [Option.some.injEq, Prod.mk.injEq] at h
    obtain ⟨rfl, rfl⟩ := h
    cases thr <;> exact agree_move A hth rfl (fun _ _ _ => rfl)
  · simp only [Option.some.injEq, Prod.mk.injEq] at h
    obtain ⟨rfl, rfl⟩ := h
    exact agree_move A hth rfl (fun _ _ _ => rfl)
  · simp only [Option.some.injEq, Prod.mk.injEq] at h
    obtain ⟨rfl, rfl⟩ := h
    refine agree_move A hth ?_ (fun u b hu => by simp [holdsUpd, hne u hu])
    split <;> simp [holdsUpd, Th.owns, PC.owns]
  · simp only [Option.some.injEq, Prod.mk.injEq] at h
    obtain ⟨rfl, rfl⟩ := h
    refine agree_move A hth ?_ (fun _ _ _ => rfl)
    split <;> rfl
  · cases h; exact agree_move A hth rfl (fun _ _ _ => rfl)
  · cases h

theorem agree_exec {n : Nat} {tr : List Ev} {s : St} (h : Exec step (init n) tr s) : Agree tr s :=
  Exec.invariant Agree (agree_init n) agree_step h

theorem Agree.get {tr : List Ev} {s : St} (A : Agree tr s) {t : Nat} (h : holds tr t = true) :
    ∃ th, s.ths[t]? = some th ∧ th.owns = true := by
  have := A t
  split at this
  · next th hth => exact ⟨th, hth, by rw [← this]; exact h⟩
  · rw [h] at this; cases this

theorem Agree.none {tr : List Ev} {s : St} (A : Agree tr s) (h : ∀ t, holds tr t = false) :
    s.ths.countP Th.owns = 0 := by
  apply countP_eq_zero_of_forall
  intro i x hx
  have := A i
  rw [hx, h i] at this
  exact this.symm

/-! ## Views -/

/-- Every work item is in its thread's view; published work is in the word's message. -/
structure VInv (tr : List Ev) (s : St) : Prop where
  works : ∀ e ∈ tr, ∀ j id, workOf e = some (j, id) → ∃ th, s.ths[j]? = some th ∧ id ∈ th.view
  msg : ∀ id, Published relOf workOf tr id → id ∈ s.word.msg

theorem vinv_init (n : Nat) : VInv [] (init n) :=
  ⟨by simp, fun _ h => absurd h not_published_nil⟩

/-- One thread moves without losing knowledge. -/
theorem vinv_move {tr es : List Ev} {s : St} {t : Nat} {th th' : Th} {w' : Loc UInt32} {e' : Bool} {m' : View} {f' : Nat}
    (V : VInv tr s) (hth : s.ths[t]? = some th)
    (hgrow : ∀ id, id ∈ th.view → id ∈ th'.view)
    (hmsg : ∀ id, id ∈ s.word.msg → id ∈ w'.msg)
    (hwork : ∀ e ∈ es, ∀ j id, workOf e = some (j, id) → j = t ∧ id ∈ th'.view)
    (hrel : ∀ e ∈ es, ∀ j, relOf e = some j → j = t ∧ ∀ id, id ∈ th'.view → id ∈ w'.msg) :
    VInv (tr ++ es) ⟨w', e', m', s.ths.set t th', f'⟩ := by
  have hw : ∀ e ∈ tr ++ es, ∀ j id, workOf e = some (j, id) → ∃ x, (s.ths.set t th')[j]? = some x ∧ id ∈ x.view := by
    intro e he j id hj
    rcases List.mem_append.mp he with he | he
    · obtain ⟨x, hx, hid⟩ := V.works e he j id hj
      by_cases h : t = j
      · subst h
        rw [hth] at hx; cases hx
        exact ⟨th', get_set_self hth, hgrow id hid⟩
      · exact ⟨x, by rw [get_set_ne h]; exact hx, hid⟩
    · obtain ⟨rfl, hid⟩ := hwork e he j id hj
      exact ⟨th', get_set_self hth, hid⟩
  refine ⟨hw, ?_⟩
  intro id hp
  rcases published_append hp with hp | ⟨e, he, j, w, h1, h2, h3⟩
  · exact hmsg id (V.msg id hp)
  · obtain ⟨rfl, hpub⟩ := hrel e he j h1
    obtain ⟨x, hx, hid⟩ := hw w h2 _ _ h3
    rw [get_set_self hth] at hx
    cases hx
    exact hpub id hid

theorem rmw_grow (w : Loc UInt32) (o : Order) (v : View) (n : UInt32) : ∀ id, id ∈ v → id ∈ (w.rmw o v n).2 := by
  intro id h
  cases o <;> simp [Loc.rmw, Order.isAcquire, h]
theorem rmw_msg {w : Loc UInt32} {o : Order} {v : View} {n : UInt32} {id : Nat} (h : id ∈ w.msg) :
    id ∈ (w.rmw o v n).1.msg := by
  cases o <;> simp [Loc.rmw, Order.isAcquire, Order.isRelease, h]

def quiet (es : List Ev) : Bool := es.all fun e => workOf e == none && relOf e == none

theorem quiet_work {es : List Ev} (h : quiet es = true) {t : Nat} {v : View} :
    ∀ e ∈ es, ∀ j id, workOf e = some (j, id) → j = t ∧ id ∈ v := by
  intro e he j id hj
  have := List.all_eq_true.mp h e he
  simp only [Bool.and_eq_true, beq_iff_eq] at this
  rw [this.1] at hj; cases hj
theorem quiet_rel {es : List Ev} (h : quiet es = true) {t : Nat} {P : Nat → Prop} :
    ∀ e ∈ es, ∀ j, relOf e = some j → j = t ∧ ∀ id, P id := by
  intro e he j hj
  have := List.all_eq_true.mp h e he
  simp only [Bool.and_eq_true, beq_iff_eq] at this
  rw [this.2] at hj; cases hj

/-- A step that is silent with respect to views. -/
theorem vinv_quiet {tr es : List Ev} {s : St} {t : Nat} {th th' : Th} {w' : Loc UInt32} {e' : Bool} {m' : View} {f' : Nat}
    (V : VInv tr s) (hth : s.ths[t]? = some th)
    (hgrow : ∀ id, id ∈ th.view → id ∈ th'.view)
    (hmsg : ∀ id, id ∈ s.word.msg → id ∈ w'.msg) (hq : quiet es = true) :
    VInv (tr ++ es) ⟨w', e', m', s.ths.set t th', f'⟩ :=
  vinv_move V hth hgrow hmsg (quiet_work hq) (quiet_rel hq (P := fun id => id ∈ th'.view → id ∈ w'.msg))

theorem vinv_rmw {tr es : List Ev} {s : St} {t : Nat} {pc pc' : PC} {v : View} {o : Order} {n : UInt32}
    (V : VInv tr s) (hth : s.ths[t]? = some ⟨pc, v⟩) (hq : quiet es = true) :
    VInv (tr ++ es) { s with word := (s.word.rmw o v n).1, ths := s.ths.set t ⟨pc', (s.word.rmw o v n).2⟩ } :=
  vinv_quiet V hth (fun id h => rmw_grow s.word o v n id h) (fun _ h => rmw_msg h) hq

theorem vinv_step (tr : List Ev) (s : St) (l : Nat × Act) (s' : St) (es : List Ev)
    (V : VInv tr s) (h : step s l = some (s', es)) : VInv (tr ++ es) s' := by
  obtain ⟨t, a⟩ := l
  unfold step at h
  simp only at h
  split at h
  · cases h
  next th hth =>
  obtain ⟨pc, v⟩ := th
  simp only at h
  have hwk : ∀ (pc' : PC), VInv (tr ++ [.work t s.fresh])
      { s with ths := s.ths.set t ⟨pc', s.fresh :: v⟩, fresh := s.fresh + 1 } := by
    intro pc'
    refine vinv_move V hth (fun _ h => List.mem_cons_of_mem _ h) (fun _ h => h) ?_ ?_
    · intro e he j id hj
      simp only [List.mem_singleton] at he
      subst he
      simp only [workOf, Option.some.injEq, Prod.mk.injEq] at hj
      obtain ⟨rfl, rfl⟩ := hj
      exact ⟨rfl, List.mem_cons_self⟩
    · intro e he j hj
      simp only [List.mem_singleton] at he
      subst he
      cases hj
  split at h
  · cases h; exact vinv_quiet V hth (fun _ h => h) (fun _ h => h) rfl
  · cases h; exact hwk _
  · cases h; exact hwk _
  · cases h; exact vinv_quiet V hth (fun _ h => h) (fun _ h => h) rfl
  · next k =>
    split at h
    · simp only [Option.some.injEq, Prod.mk.injEq] at h
      obtain ⟨rfl, rfl⟩ := h
      cases k <;> exact vinv_rmw V hth rfl
    · simp only [Option.some.injEq, Prod.mk.injEq] at h
      obtain ⟨rfl, rfl⟩ := h
      exact vinv_rmw V hth rfl
  · cases h; exact vinv_quiet V hth (fun _ h => List.mem_append_left _ h) (fun _ h => h) rfl
  · cases h; exact vinv_quiet V hth (fun _ h => h) (fun _ h => h) rfl
  · cases h; exact vinv_quiet V hth (fun _ h => h) (fun _ h => h) rfl
  · split at h
    · split at h
      · simp only [Option.some.injEq, Prod.mk.injEq] at h
        obtain ⟨rfl, rfl⟩ := h
        exact vinv_rmw V hth rfl
      · simp only [Option.some.injEq, Prod.mk.injEq] at h
        obtain ⟨rfl, rfl⟩ := h
        exact vinv_rmw V hth rfl
    · cases h; exact vinv_quiet V hth (fun _ h => h) (fun _ h => h) rfl
  · cases h; exact vinv_quiet V hth (fun _ h => h) (fun _ h => h) rfl
  · split at h
    · cases h; exact vinv_quiet V hth (fun _ h => List.mem_append_left _ h) (fun _ h => h) rfl
    · cases h
  · cases h; exact vinv_quiet V hth (fun _ h => h) (fun _ h => h) rfl
  · cases h; exact vinv_quiet V hth (fun _ h => h) (fun _ h => h) rfl
  · split at h
    · split at h
      · simp only [Option.some.injEq, Prod.mk.injEq] at h
        obtain ⟨rfl, rfl⟩ := h
        exact vinv_rmw V hth rfl
      · simp only [Option.some.injEq, Prod.mk.injEq] at h
        obtain ⟨rfl, rfl⟩ := h
        exact vinv_rmw V hth rfl
    · cases h; exact vinv_quiet V hth (fun _ h => h) (fun _ h => h) rfl
  · cases h; exact vinv_quiet V hth (fun _ h => h) (fun _ h => h) rfl
  · next k thr =>
    simp only [Option.some.injEq, Prod.mk.injEq] at h
    obtain ⟨rfl, rfl⟩ := h
    cases thr <;> exact vinv_rmw V hth rfl
  · simp only [Option.some.injEq, Prod.mk.injEq] at h
    obtain ⟨rfl, rfl⟩ := h
    exact vinv_rmw V hth rfl
  · simp only [Option.some.injEq, Prod.mk.injEq] at h
    obtain ⟨rfl, rfl⟩ := h
    refine vinv_move V hth (fun id h => rmw_grow s.word relOrder v (s.word.val + lockFlag) id h) (fun _ h => rmw_msg h) ?_ ?_
    · intro e he j id hj
      simp only [List.mem_singleton] at he
      subst he
      cases hj
    · intro e he j hj
      simp only [List.mem_singleton] at he
      subst he
      simp only [relOf, Option.some.injEq] at hj
      refine ⟨hj.symm, ?_⟩
      intro id hid
      change id ∈ v at hid
      show id ∈ s.word.msg ++ v
      exact List.mem_append_right _ hid
  · simp only [Option.some.injEq, Prod.mk.injEq] at h
    obtain ⟨rfl, rfl⟩ := h
    exact vinv_rmw V hth rfl
  · cases h; exact vinv_quiet V hth (fun _ h => h) (fun _ h => h) rfl
  · cases h

theorem vinv_exec {n : Nat} {tr : List Ev} {s : St} (h : Exec step (init n) tr s) : VInv tr s :=
  Exec.invariant VInv (vinv_init n) vinv_step h

end Verif.WinMutex
