import Verif.Base.Count
import Verif.Spec.ManualEventFutex

/-! Invariants of the futex `manual_reset_event`. -/

namespace Verif.ManualFutex

/-! ## The word -/

theorem isSet_iff {w : UInt32} : isSet w = true ↔ w.toNat % 2 = 1 := by
  have h : (w &&& postBit).toNat = w.toNat % 2 := by
    rw [UInt32.toNat_and]; show w.toNat &&& 1 = _; rw [Nat.and_one_is_mod]
  simp only [isSet, bne_iff_ne, ne_eq]
  rw [← UInt32.toNat_inj, h]
  show ¬ w.toNat % 2 = 0 ↔ _
  omega

theorem isSet_false_iff {w : UInt32} : isSet w = false ↔ w.toNat % 2 = 0 := by
  have := isSet_iff (w := w)
  cases h : isSet w
  · simp only [h, Bool.false_eq_true, false_iff] at this; simp; omega
  · simp only [h, true_iff] at this; simp; omega

theorem or_toNat (w : UInt32) : (w ||| postBit).toNat = 2 * (w.toNat / 2) + 1 := by
  rw [UInt32.toNat_or]
  show w.toNat ||| 1 = _
  have h1 : (w.toNat ||| 1) % 2 = 1 := by simp
  have h2 : (w.toNat ||| 1) / 2 = w.toNat / 2 := by rw [Nat.or_div_two]; simp
  omega

theorem and_toNat (w : UInt32) : (w &&& waitMask).toNat = 2 * (w.toNat / 2) := by
  rw [UInt32.toNat_and]
  show w.toNat &&& 4294967294 = _
  have hw := w.toNat_lt
  have h1 : (w.toNat &&& 4294967294) % 2 = 0 := by
    have : ¬ (w.toNat &&& 4294967294) % 2 = 1 := by rw [Nat.and_mod_two_eq_one]; omega
    omega
  have h2 : (w.toNat &&& 4294967294) / 2 = w.toNat / 2 := by
    rw [Nat.and_div_two]
    show w.toNat / 2 &&& (2 ^ 31 - 1) = _
    rw [Nat.and_two_pow_sub_one_eq_mod]
    omega
  omega

theorem hasWaiters_iff {w : UInt32} : hasWaiters w = true ↔ 0 < w.toNat / 2 := by
  simp only [hasWaiters, bne_iff_ne, ne_eq]
  rw [← UInt32.toNat_inj, and_toNat]
  show ¬ _ = 0 ↔ _
  omega

theorem add_toNat (w : UInt32) : (w + waitOne).toNat = (w.toNat + 2) % 4294967296 := by
  simp [UInt32.toNat_add, waitOne]
theorem sub_toNat (w : UInt32) : (w - waitOne).toNat = (4294967294 + w.toNat) % 4294967296 := by
  simp [UInt32.toNat_sub, waitOne]

/-! ## Trace functions -/

theorem during_fst (t : Nat) (tr : List Ev) : (tr.foldl (duringUpd t) (false, false)).1 = flag tr := by
  have h : ∀ (tr : List Ev) (p : Bool × Bool), (tr.foldl (duringUpd t) p).1 = tr.foldl flagUpd p.1 := by
    intro tr
    induction tr with
    | nil => intro p; rfl
    | cons e tr ih =>
      intro p
      simp only [List.foldl_cons, ih]
      cases e <;> rfl
  exact h tr _

theorem flag_append (tr es : List Ev) : flag (tr ++ es) = es.foldl flagUpd (flag tr) := by
  simp [flag, List.foldl_append]

def isCall (i : Nat) : Ev → Bool
  | .called t _ => t = i
  | _ => false

theorem during_keep {i : Nat} {tr es : List Ev} (hno : ∀ e ∈ es, isCall i e = false)
    (h : setDuringCall i tr = true) : setDuringCall i (tr ++ es) = true := by
  induction es generalizing tr with
  | nil => simpa using h
  | cons e es ih =>
    rw [show tr ++ e :: es = (tr ++ [e]) ++ es by simp]
    apply ih (fun e' he' => hno e' (List.mem_cons_of_mem _ he'))
    have he := hno e List.mem_cons_self
    simp only [setDuringCall, List.foldl_append, List.foldl_cons, List.foldl_nil]
    simp only [setDuringCall] at h
    cases e with
    | called t op =>
      simp only [isCall, decide_eq_false_iff_not] at he
      simp only [duringUpd, if_neg he]; exact h
    | wasSet t => rfl
    | _ => exact h

theorem during_set {i t : Nat} {tr es : List Ev} (hno : ∀ e ∈ es, isCall i e = false) :
    setDuringCall i (tr ++ .wasSet t :: es) = true := by
  rw [show tr ++ Ev.wasSet t :: es = (tr ++ [.wasSet t]) ++ es by simp]
  apply during_keep hno
  simp [setDuringCall, List.foldl_append, duringUpd]

theorem during_call {t : Nat} {tr : List Ev} {op : Op} : setDuringCall t (tr ++ [.called t op]) = flag tr := by
  have := during_fst t tr
  simp only [setDuringCall, List.foldl_append, List.foldl_cons, List.foldl_nil, duringUpd, if_true]
  exact this

theorem during_of_flag {t : Nat} {tr : List Ev} (h : flag tr = true) : setDuringCall t tr = true := by
  have key : ∀ (tr : List Ev) (p : Bool × Bool), (p.1 = true → p.2 = true) →
      (tr.foldl (duringUpd t) p).1 = true → (tr.foldl (duringUpd t) p).2 = true := by
    intro tr
    induction tr with
    | nil => intro p hp; exact hp
    | cons e tr ih =>
      intro p hp
      simp only [List.foldl_cons]
      apply ih
      cases e with
      | called t' op =>
        simp only [duringUpd]
        split
        · exact id
        · exact hp
      | wasSet t' => simp [duringUpd]
      | resetDone t' => simp [duringUpd]
      | _ => exact hp
  apply key tr (false, false) (by simp)
  rw [during_fst]; exact h

/-! ## Invariant -/

/-- What is known about a thread inside a wait. -/
def PC.ok (sets : Nat) (during : Bool) : PC → Prop
  | .sub _ => during = true
  | .sleepCall _ e b => isSet e = false ∧ b ≤ sets ∧ (b < sets → during = true)
  | .asleep _ b | .reload _ b => b ≤ sets ∧ (b < sets → during = true)
  | _ => True

theorem ok_mono {sets : Nat} {d d' : Bool} {pc : PC} (h : pc.ok sets d) (hd : d = true → d' = true) : pc.ok sets d' := by
  cases pc <;> simp_all [PC.ok]
theorem ok_set {sets : Nat} {d : Bool} {pc : PC} (h : pc.ok sets d) : pc.ok (sets + 1) true := by
  cases pc <;> simp_all [PC.ok] <;> omega

structure Inv (tr : List Ev) (s : St) : Prop where
  len : s.ths.length < 2147483648
  word : s.word.val.toNat = 2 * s.ths.countP Th.blocked + b2n (isSet s.word.val)
  wake : isSet s.word.val = true → 0 < s.ths.countP Th.isAsleep → 0 < s.ths.countP Th.waking
  flag : flag tr = isSet s.word.val
  loc : ∀ (i : Nat) (th : Th), s.ths[i]? = some th → th.pc.ok s.sets (setDuringCall i tr)

theorem inv_init {n : Nat} (hn : n < 2147483648) : Inv [] (init n) where
  len := by simpa [init] using hn
  word := by simp only [init]; rw [countP_replicate_false rfl]; rfl
  wake := by intro h; exact absurd h (by show ¬ isSet 0 = true; decide)
  flag := by show false = isSet 0; decide
  loc := by intro i th h; rw [get_replicate h]; trivial

theorem blocked_lt {s : St} {t : Nat} {th : Th} (hth : s.ths[t]? = some th) :
    s.ths.countP Th.blocked + b2n (!th.blocked) ≤ s.ths.length := by
  have hd := countP_add_le_length (p := Th.blocked) (q := fun x => !x.blocked) (l := s.ths)
    (by intro a h1 h2; rw [h1] at h2; cases h2)
  have := b2n_le_countP (p := fun x : Th => !x.blocked) hth
  omega

/-- One thread moves; the word may change. -/
theorem inv_move {tr es : List Ev} {s : St} {t : Nat} {th th' : Th} {w' : Loc UInt32} {f' : Nat} (I : Inv tr s)
    (hth : s.ths[t]? = some th)
    (hcall : ∀ i, i ≠ t → ∀ e ∈ es, isCall i e = false)
    (hword : w'.val.toNat + 2 * b2n th.blocked = 2 * s.ths.countP Th.blocked + 2 * b2n th'.blocked + b2n (isSet w'.val))
    (hwake : isSet w'.val = true → 0 < s.ths.countP Th.isAsleep + b2n th'.isAsleep - b2n th.isAsleep →
      b2n th.waking < s.ths.countP Th.waking + b2n th'.waking)
    (hflag : es.foldl flagUpd (flag tr) = isSet w'.val)
    (hloc : th'.pc.ok s.sets (setDuringCall t (tr ++ es))) :
    Inv (tr ++ es) ⟨w', s.ths.set t th', f', s.sets⟩ := by
  have c1 := countP_set (p := Th.blocked) (b := th') hth
  have c2 := countP_set (p := Th.isAsleep) (b := th') hth
  have c3 := countP_set (p := Th.waking) (b := th') hth
  refine ⟨by simpa using I.len, ?_, ?_, ?_, ?_⟩
  · simp only; omega
  · simp only; intro h1 h2; have := hwake h1 (by omega); omega
  · rw [flag_append]; exact hflag
  · intro i x hx
    rcases get_set_cases hx with ⟨rfl, rfl⟩ | ⟨hne, hx⟩
    · exact hloc
    · exact ok_mono (I.loc i x hx) (during_keep (hcall i (Ne.symm hne)))

/-- A move that leaves the word alone and does not put a thread to sleep. -/
theorem inv_goto {tr es : List Ev} {s : St} {t : Nat} {th th' : Th} {f' : Nat} (I : Inv tr s)
    (hth : s.ths[t]? = some th)
    (hcall : ∀ i, i ≠ t → ∀ e ∈ es, isCall i e = false)
    (hb : th'.blocked = th.blocked) (hs : th'.isAsleep = true → th.isAsleep = true) (hw : th.waking = false)
    (hflag : es.foldl flagUpd (flag tr) = flag tr)
    (hloc : th'.pc.ok s.sets (setDuringCall t (tr ++ es))) :
    Inv (tr ++ es) ⟨s.word, s.ths.set t th', f', s.sets⟩ := by
  have i2 := I.word
  refine inv_move I hth hcall ?_ ?_ (by rw [hflag]; exact I.flag) hloc
  · rw [hb]; omega
  · intro h1 h2
    have : b2n th'.isAsleep ≤ b2n th.isAsleep := by
      cases h : th'.isAsleep
      · simp
      · rw [hs h]; exact Nat.le_refl _
    have := I.wake h1 (by omega)
    rw [hw, b2n_false]
    omega

theorem nocall_nil (t : Nat) : ∀ i, i ≠ t → ∀ e ∈ ([] : List Ev), isCall i e = false := by
  intro i _ e he; cases he
theorem nocall_call (t : Nat) (op : Op) : ∀ i, i ≠ t → ∀ e ∈ [Ev.called t op], isCall i e = false := by
  intro i hi e he
  simp only [List.mem_singleton] at he
  subst he
  simp [isCall, Ne.symm hi]
theorem nocall_one {t : Nat} {e : Ev} (h : ∀ i, isCall i e = false) : ∀ i, i ≠ t → ∀ e' ∈ [e], isCall i e' = false := by
  intro i _ e' he
  simp only [List.mem_singleton] at he
  subst he
  exact h i

theorem retEv_nocall (t : Nat) (k : Kind) (b : Bool) (i : Nat) : isCall i (retEv t k b) = false := by
  cases k <;> rfl
theorem retEv_flag (t : Nat) (k : Kind) (b c : Bool) : [retEv t k b].foldl flagUpd c = c := by cases k <;> rfl

theorem asleep_le_blocked (ths : List Th) : ths.countP Th.isAsleep ≤ ths.countP Th.blocked := by
  apply countP_le
  rintro ⟨pc, v⟩ h
  cases pc <;> first | rfl | cases h

theorem wakeUp_blocked (ths : List Th) : (ths.map Th.wakeUp).countP Th.blocked = ths.countP Th.blocked := by
  rw [List.countP_map]
  apply List.countP_congr
  rintro ⟨pc, v⟩ _
  cases pc <;> exact Iff.rfl
theorem wakeUp_asleep (ths : List Th) : (ths.map Th.wakeUp).countP Th.isAsleep = 0 := by
  rw [List.countP_map]
  apply List.countP_eq_zero.mpr
  rintro ⟨pc, v⟩ _
  cases pc <;> simp [Th.wakeUp, Th.isAsleep, PC.isAsleep]

theorem get_wakeUp {ths : List Th} {i : Nat} {x : Th} (h : (ths.map Th.wakeUp)[i]? = some x) :
    ∃ th, ths[i]? = some th ∧ x = th.wakeUp := by
  rw [List.getElem?_map] at h
  cases hth : ths[i]? with
  | none => rw [hth] at h; cases h
  | some th => rw [hth] at h; cases h; exact ⟨th, rfl, rfl⟩

theorem ok_wakeUp {sets : Nat} {d : Bool} {th : Th} (h : th.pc.ok sets d) : th.wakeUp.pc.ok sets d := by
  obtain ⟨pc, v⟩ := th
  cases pc <;> exact h

macro "mgoto" I:ident hth:ident : tactic => `(tactic| first
  | exact inv_goto $I $hth (nocall_nil _) rfl id rfl rfl trivial
  | exact inv_goto $I $hth (nocall_nil _) rfl (fun h => nomatch h) rfl rfl trivial
  | exact inv_goto $I $hth (nocall_call _ _) rfl id rfl rfl trivial
  | exact inv_goto $I $hth (nocall_one (fun _ => rfl)) rfl id rfl rfl trivial
  | exact inv_goto $I $hth (nocall_one (fun i => retEv_nocall _ _ _ i)) rfl id rfl (retEv_flag _ _ _ _) trivial)

theorem step_inv {tr es : List Ev} {s s' : St} {l : Nat × Act} (I : Inv tr s) (h : step s l = some (s', es)) :
    Inv (tr ++ es) s' := by
  obtain ⟨t, a⟩ := l
  have i1 := I.len
  have i2 := I.word
  have i3 := I.wake
  have i4 := I.flag
  have hle := asleep_le_blocked s.ths
  unfold step at h
  simp only at h
  split at h
  · cases h
  next th hth =>
  obtain ⟨pc, v⟩ := th
  have hloc := I.loc t _ hth
  have hbl := blocked_lt hth
  simp only at h
  split at h
  · cases h; mgoto I hth
  · cases h; mgoto I hth
  · cases h; mgoto I hth
  · cases h; mgoto I hth
  · cases h; mgoto I hth
  · cases h; mgoto I hth
  · -- set
    have ho := or_toNat s.word.val
    have hset : isSet (s.word.val ||| postBit) = true := by rw [isSet_iff, ho]; omega
    have hb1 : b2n (isSet s.word.val) ≤ 1 := b2n_le_one _
    -- both branches leave the same word
    have key : ∀ (pc' : PC) (es' : List Ev), pc' = .setWake ∨ (pc' = .idle ∧
          ¬ ((!isSet s.word.val && hasWaiters s.word.val) = true)) →
        (∀ i, ∀ e ∈ es', isCall i e = false) → es'.foldl flagUpd true = true →
        Inv (tr ++ .wasSet t :: es') { s with
          word := (s.word.rmw setOrder v (s.word.val ||| postBit)).1,
          ths := s.ths.set t ⟨pc', (s.word.rmw setOrder v (s.word.val ||| postBit)).2⟩,
          sets := s.sets + 1 } := by
      intro pc' es' hpc' hno hfl
      have c1 := countP_set (p := Th.blocked) (b := ⟨pc', (s.word.rmw setOrder v (s.word.val ||| postBit)).2⟩) hth
      have c2 := countP_set (p := Th.isAsleep) (b := ⟨pc', (s.word.rmw setOrder v (s.word.val ||| postBit)).2⟩) hth
      have c3 := countP_set (p := Th.waking) (b := ⟨pc', (s.word.rmw setOrder v (s.word.val ||| postBit)).2⟩) hth
      have e1 : b2n (Th.blocked ⟨pc', (s.word.rmw setOrder v (s.word.val ||| postBit)).2⟩) = 0 := by
        rcases hpc' with rfl | ⟨rfl, _⟩ <;> rfl
      have e2 : b2n (Th.isAsleep ⟨pc', (s.word.rmw setOrder v (s.word.val ||| postBit)).2⟩) = 0 := by
        rcases hpc' with rfl | ⟨rfl, _⟩ <;> rfl
      change _ + 0 = _ at c1
      change _ + 0 = _ at c2
      change _ + 0 = _ at c3
      refine ⟨by simpa using i1, ?_, ?_, ?_, ?_⟩
      · show (s.word.val ||| postBit).toNat = _ + b2n (isSet (s.word.val ||| postBit))
        rw [ho, hset, b2n_true]
        simp only
        omega
      · intro _ hs
        simp only at hs ⊢
        rcases hpc' with rfl | ⟨rfl, hcond⟩
        · change _ = _ + 1 at c3
          omega
        · change _ = _ + 0 at c3
          have hb : isSet s.word.val = true := by
            cases hb : isSet s.word.val
            · exfalso
              apply hcond
              rw [hb]
              simp only [Bool.not_false, Bool.true_and]
              rw [hasWaiters_iff]
              omega
            · rfl
          have := i3 hb (by omega)
          omega
      · rw [flag_append, List.foldl_cons]
        show es'.foldl flagUpd true = isSet (s.word.val ||| postBit)
        rw [hset, hfl]
      · intro i x hx
        rw [during_set (hno i)]
        rcases get_set_cases hx with ⟨rfl, rfl⟩ | ⟨hne, hx⟩
        · rcases hpc' with rfl | ⟨rfl, _⟩ <;> trivial
        · exact ok_set (I.loc i x hx)
    split at h
    · simp only [Option.some.injEq, Prod.mk.injEq] at h
      obtain ⟨rfl, rfl⟩ := h
      exact key .setWake [] (Or.inl rfl) (fun _ e he => by cases he) rfl
    · next hc =>
      simp only [Option.some.injEq, Prod.mk.injEq] at h
      obtain ⟨rfl, rfl⟩ := h
      exact key .idle [.setDone t] (Or.inr ⟨rfl, hc⟩)
        (fun _ e he => by simp only [List.mem_singleton] at he; subst he; rfl) rfl
  · -- broadcast
    cases h
    have c1 := countP_set (p := Th.blocked) (b := ⟨.idle, v⟩) hth
    change _ + 0 = _ + 0 at c1
    refine ⟨by simpa using i1, ?_, ?_, ?_, ?_⟩
    · simp only
      rw [wakeUp_blocked]
      omega
    · intro _ h2
      simp only at h2
      rw [wakeUp_asleep] at h2
      omega
    · rw [flag_append]; exact i4
    · intro i x hx
      obtain ⟨y, hy, rfl⟩ := get_wakeUp hx
      apply ok_wakeUp
      refine ok_mono ?_ (during_keep (es := [.setDone t])
        (fun e he => by simp only [List.mem_singleton] at he; subst he; rfl))
      rcases get_set_cases hy with ⟨rfl, rfl⟩ | ⟨_, hy⟩
      · trivial
      · exact I.loc i y hy
  · -- reset
    have ha := and_toNat s.word.val
    have hset : isSet (s.word.val &&& waitMask) = false := by rw [isSet_false_iff, ha]; omega
    have hb1 : b2n (isSet s.word.val) ≤ 1 := b2n_le_one _
    simp only [Option.some.injEq, Prod.mk.injEq] at h
    obtain ⟨rfl, rfl⟩ := h
    refine inv_move I hth (nocall_one (fun _ => rfl)) ?_ ?_ ?_ trivial
    · show (s.word.val &&& waitMask).toNat + 2 * 0 = _ + 2 * 0 + b2n (isSet (s.word.val &&& waitMask))
      rw [hset, ha, b2n_false]
      omega
    · intro h1
      change isSet (s.word.val &&& waitMask) = true at h1
      rw [hset] at h1; cases h1
    · show false = isSet (s.word.val &&& waitMask)
      rw [hset]
  · -- try_wait
    split at h
    · cases h; mgoto I hth
    · split at h <;> (cases h; mgoto I hth)
  · -- add
    next k =>
    have ha := add_toNat s.word.val
    have hb1 : b2n (isSet s.word.val) ≤ 1 := b2n_le_one _
    change _ + 1 ≤ _ at hbl
    have hset : isSet (s.word.val + waitOne) = isSet s.word.val := by
      cases hb : isSet s.word.val
      · rw [isSet_false_iff] at hb ⊢; omega
      · rw [isSet_iff] at hb ⊢; omega
    simp only [Option.some.injEq, Prod.mk.injEq] at h
    obtain ⟨rfl, rfl⟩ := h
    rw [hset]
    have e1 : ∀ vv : View, b2n (Th.blocked ⟨if isSet s.word.val = true then PC.sub k
        else .sleepCall k (s.word.val + waitOne) s.sets, vv⟩) = 1 := by
      intro vv; split <;> rfl
    have e2 : ∀ vv : View, b2n (Th.isAsleep ⟨if isSet s.word.val = true then PC.sub k
        else .sleepCall k (s.word.val + waitOne) s.sets, vv⟩) = 0 := by
      intro vv; split <;> rfl
    have e3 : ∀ vv : View, b2n (Th.waking ⟨if isSet s.word.val = true then PC.sub k
        else .sleepCall k (s.word.val + waitOne) s.sets, vv⟩) = 0 := by
      intro vv; split <;> rfl
    refine inv_move I hth (nocall_nil _) ?_ ?_ ?_ ?_
    · show (s.word.val + waitOne).toNat + 2 * 0 = _ + 2 * b2n _ + b2n (isSet (s.word.val + waitOne))
      rw [hset, ha, e1]
      omega
    · intro h1 h2
      change isSet (s.word.val + waitOne) = true at h1
      rw [hset] at h1
      rw [e2] at h2
      change 0 < _ + 0 - 0 at h2
      rw [e3]
      show 0 < _ + 0
      exact i3 h1 (by omega)
    · show flag tr = isSet (s.word.val + waitOne)
      rw [hset, i4]
    · split
      · next hb =>
        rw [List.append_nil]
        exact during_of_flag (by rw [i4]; exact hb)
      · next hb =>
        exact ⟨by rw [hset]; simpa using hb, Nat.le_refl _, fun h => absurd h (Nat.lt_irrefl _)⟩
  · -- falling asleep
    next k e b =>
    obtain ⟨h1, h2⟩ := hloc
    split at h
    · next hw =>
      cases h
      refine inv_move I hth (nocall_nil _) ?_ ?_ i4 ?_
      · show s.word.val.toNat + 2 * 1 = _ + 2 * 1 + _; omega
      · intro hs; rw [hw, h1] at hs; cases hs
      · rw [List.append_nil]; exact h2
    · cases h
      exact inv_goto I hth (nocall_nil _) rfl (fun h => nomatch h) rfl rfl (by rw [List.append_nil]; exact h2)
  · cases h
    exact inv_goto I hth (nocall_nil _) rfl (fun h => nomatch h) rfl rfl (by rw [List.append_nil]; exact hloc.2)
  · cases h; mgoto I hth
  · cases h
    exact inv_goto I hth (nocall_nil _) rfl (fun h => nomatch h) rfl rfl (by rw [List.append_nil]; exact hloc)
  · cases h; mgoto I hth
  · next k b w =>
    obtain ⟨h1, h2⟩ := hloc
    split at h
    · split at h
      · next hlt =>
        cases h
        exact inv_goto I hth (nocall_nil _) rfl (fun h => nomatch h) rfl rfl (by rw [List.append_nil]; exact h2 hlt)
      · cases h
    · next hw =>
      cases h
      exact inv_goto I hth (nocall_nil _) rfl (fun h => nomatch h) rfl rfl
        (by rw [List.append_nil]; exact ⟨by simpa using hw, h1, h2⟩)
  · -- leaving
    next k =>
    have hpos := countP_pos_of_get (p := Th.blocked) hth rfl
    have ha := sub_toNat s.word.val
    have hb1 : b2n (isSet s.word.val) ≤ 1 := b2n_le_one _
    have hlt := s.word.val.toNat_lt
    have hset : isSet (s.word.val - waitOne) = isSet s.word.val := by
      cases hb : isSet s.word.val
      · rw [isSet_false_iff] at hb ⊢; omega
      · rw [isSet_iff] at hb ⊢; omega
    simp only [Option.some.injEq, Prod.mk.injEq] at h
    obtain ⟨rfl, rfl⟩ := h
    refine inv_move I hth (nocall_one (fun i => retEv_nocall _ _ _ i)) ?_ ?_ ?_ trivial
    · show (s.word.val - waitOne).toNat + 2 * 1 = _ + 2 * 0 + b2n (isSet (s.word.val - waitOne))
      rw [hset, ha]
      omega
    · intro h1 h2
      change isSet (s.word.val - waitOne) = true at h1
      rw [hset] at h1
      change 0 < _ + 0 - 0 at h2
      show 0 < _ + 0
      exact i3 h1 (by omega)
    · rw [retEv_flag]
      show flag tr = isSet (s.word.val - waitOne)
      rw [hset, i4]
  · have hpos := countP_pos_of_get (p := Th.blocked) hth rfl
    have ha := sub_toNat s.word.val
    have hb1 : b2n (isSet s.word.val) ≤ 1 := b2n_le_one _
    have hlt := s.word.val.toNat_lt
    have hset : isSet (s.word.val - waitOne) = isSet s.word.val := by
      cases hb : isSet s.word.val
      · rw [isSet_false_iff] at hb ⊢; omega
      · rw [isSet_iff] at hb ⊢; omega
    simp only [Option.some.injEq, Prod.mk.injEq] at h
    obtain ⟨rfl, rfl⟩ := h
    refine inv_move I hth (nocall_one (fun _ => rfl)) ?_ ?_ ?_ trivial
    · show (s.word.val - waitOne).toNat + 2 * 1 = _ + 2 * 0 + b2n (isSet (s.word.val - waitOne))
      rw [hset, ha]
      omega
    · intro h1 h2
      change isSet (s.word.val - waitOne) = true at h1
      rw [hset] at h1
      change 0 < _ + 0 - 0 at h2
      show 0 < _ + 0
      exact i3 h1 (by omega)
    · show flag tr = isSet (s.word.val - waitOne)
      rw [hset, i4]
  · cases h

theorem inv_exec {n : Nat} (hn : n < 2147483648) {tr : List Ev} {s : St} (h : Exec step (init n) tr s) : Inv tr s :=
  Exec.invariant Inv (inv_init hn) (fun _ _ _ _ _ I hs => step_inv I hs) h

/-! ## Views -/

structure VStep (s : St) (es : List Ev) (s' : St) : Prop where
  grow : ∀ (j : Nat) (th : Th), s.ths[j]? = some th → ∃ th', s'.ths[j]? = some th' ∧ th.view ⊆ th'.view
  msg : s.word.msg ⊆ s'.word.msg
  rel : ∀ e ∈ es, ∀ j, relOf e = some j → ∀ th, s.ths[j]? = some th → th.view ⊆ s'.word.msg
  work : ∀ e ∈ es, ∀ j id, workOf e = some (j, id) → ∃ th', s'.ths[j]? = some th' ∧ id ∈ th'.view
  noBoth : ∀ e ∈ es, (relOf e).isSome = true → ∀ e' ∈ es, workOf e' = none
  succ : ∀ e ∈ es, ∀ j, successOf e = some j → ∃ th', s'.ths[j]? = some th' ∧ s.word.msg ⊆ th'.view

theorem grow_set {l : List Th} {t : Nat} {th th' : Th} (hth : l[t]? = some th) (hsub : th.view ⊆ th'.view) :
    ∀ (j : Nat) (x : Th), l[j]? = some x → ∃ x', (l.set t th')[j]? = some x' ∧ x.view ⊆ x'.view := by
  intro j x hx
  by_cases hj : t = j
  · subst hj
    rw [hth] at hx; cases hx
    exact ⟨th', get_set_self hth, hsub⟩
  · exact ⟨x, by rw [get_set_ne hj]; exact hx, List.Subset.refl _⟩

def quiet (e : Ev) : Prop := relOf e = none ∧ workOf e = none ∧ successOf e = none

theorem vstep_goto {s : St} {t : Nat} {pc pc' : PC} {v v' : View} {f' n' : Nat} {es : List Ev}
    (hth : s.ths[t]? = some ⟨pc, v⟩) (hv : v ⊆ v') (hq : ∀ e ∈ es, quiet e) :
    VStep s es ⟨s.word, s.ths.set t ⟨pc', v'⟩, f', n'⟩ where
  grow := grow_set hth hv
  msg := List.Subset.refl _
  rel := by intro e he j hr; rw [(hq e he).1] at hr; cases hr
  work := by intro e he j id hr; rw [(hq e he).2.1] at hr; cases hr
  noBoth := by intro e he hr; rw [(hq e he).1] at hr; cases hr
  succ := by intro e he j hr; rw [(hq e he).2.2] at hr; cases hr

theorem vstep_rmw {s : St} {t : Nat} {pc pc' : PC} {v : View} {f' n' : Nat} {es : List Ev} {o : Order} {w : UInt32}
    (hth : s.ths[t]? = some ⟨pc, v⟩)
    (hw : ∀ e ∈ es, workOf e = none)
    (hr : ∀ e ∈ es, ∀ j, relOf e = some j → j = t ∧ o.isRelease = true)
    (hs : ∀ e ∈ es, ∀ j, successOf e = some j → j = t ∧ o.isAcquire = true) :
    VStep s es ⟨(s.word.rmw o v w).1, s.ths.set t ⟨pc', (s.word.rmw o v w).2⟩, f', n'⟩ where
  grow := by
    refine grow_set hth ?_
    simp only [Loc.rmw]
    intro x hx
    split <;> simp [hx]
  msg := by
    simp only [Loc.rmw]
    intro x hx
    split <;> simp [hx]
  rel := by
    intro e he j hj th hj'
    obtain ⟨rfl, ho⟩ := hr e he j hj
    rw [hth] at hj'; cases hj'
    simp only [Loc.rmw, ho, if_true]
    intro x hx
    split <;> simp [hx]
  work := by intro e he j id h; rw [hw e he] at h; cases h
  noBoth := by intro e he _ e' he'; exact hw e' he'
  succ := by
    intro e he j hj
    obtain ⟨rfl, ho⟩ := hs e he j hj
    refine ⟨_, get_set_self hth, ?_⟩
    simp only [Loc.rmw, ho, if_true]
    intro x hx
    simp [hx]

theorem retEv_success {t j : Nat} {k : Kind} (h : successOf (retEv t k true) = some j) : j = t := by
  cases k <;> (cases h; rfl)
theorem retEv_rel (t : Nat) (k : Kind) (b : Bool) : relOf (retEv t k b) = none := by cases k <;> rfl
theorem retEv_work (t : Nat) (k : Kind) (b : Bool) : workOf (retEv t k b) = none := by cases k <;> rfl

theorem quiet_nil : ∀ e ∈ ([] : List Ev), quiet e := by intro e he; cases he
theorem quiet_one {e : Ev} (h : quiet e) : ∀ e' ∈ [e], quiet e' := by
  intro e' he; simp only [List.mem_singleton] at he; subst he; exact h

theorem loadView_sub {s : St} {v : View} : v ⊆ s.word.loadView takeOrder v := by
  intro x hx; simp [Loc.loadView, takeOrder, Order.isAcquire, hx]

macro "vgoto" hth:ident : tactic => `(tactic| first
  | exact vstep_goto $hth (List.Subset.refl _) quiet_nil
  | exact vstep_goto $hth (List.Subset.refl _) (quiet_one ⟨rfl, rfl, rfl⟩))

theorem step_view {s s' : St} {l : Nat × Act} {es : List Ev} (h : step s l = some (s', es)) : VStep s es s' := by
  obtain ⟨t, a⟩ := l
  unfold step at h
  simp only at h
  split at h
  · cases h
  next th hth =>
  obtain ⟨pc, v⟩ := th
  simp only at h
  split at h
  · cases h; vgoto hth
  · cases h; vgoto hth
  · cases h; vgoto hth
  · cases h; vgoto hth
  · cases h; vgoto hth
  · cases h
    refine ⟨grow_set hth (List.subset_cons_self _ _), List.Subset.refl _, ?_, ?_, ?_, ?_⟩
    · intro e he j hj; simp only [List.mem_singleton] at he; subst he; cases hj
    · intro e he j id hj; simp only [List.mem_singleton] at he; subst he; cases hj
      exact ⟨_, get_set_self hth, by simp⟩
    · intro e he hj; simp only [List.mem_singleton] at he; subst he; cases hj
    · intro e he j hj; simp only [List.mem_singleton] at he; subst he; cases hj
  · split at h
    · simp only [Option.some.injEq, Prod.mk.injEq] at h
      obtain ⟨rfl, rfl⟩ := h
      refine vstep_rmw hth ?_ ?_ ?_
      · intro e he; simp only [List.mem_singleton] at he; subst he; rfl
      · intro e he j hj; simp only [List.mem_singleton] at he; subst he; cases hj; exact ⟨rfl, rfl⟩
      · intro e he j hj; simp only [List.mem_singleton] at he; subst he; cases hj
    · simp only [Option.some.injEq, Prod.mk.injEq] at h
      obtain ⟨rfl, rfl⟩ := h
      refine vstep_rmw hth ?_ ?_ ?_
      · intro e he
        simp only [List.mem_cons, List.not_mem_nil, or_false] at he
        rcases he with rfl | rfl <;> rfl
      · intro e he j hj
        simp only [List.mem_cons, List.not_mem_nil, or_false] at he
        rcases he with rfl | rfl <;> cases hj
        exact ⟨rfl, rfl⟩
      · intro e he j hj
        simp only [List.mem_cons, List.not_mem_nil, or_false] at he
        rcases he with rfl | rfl <;> cases hj
  · cases h
    refine ⟨?_, List.Subset.refl _, ?_, ?_, ?_, ?_⟩
    · intro i x hx
      obtain ⟨x', h1, h2⟩ := grow_set (th' := ⟨.idle, v⟩) hth (List.Subset.refl _) i x hx
      refine ⟨x'.wakeUp, by rw [List.getElem?_map, h1]; rfl, List.Subset.trans h2 ?_⟩
      obtain ⟨pc', v'⟩ := x'
      cases pc' <;> exact List.Subset.refl _
    · intro e he j hj; simp only [List.mem_singleton] at he; subst he; cases hj
    · intro e he j id hj; simp only [List.mem_singleton] at he; subst he; cases hj
    · intro e he hj; simp only [List.mem_singleton] at he; subst he; cases hj
    · intro e he j hj; simp only [List.mem_singleton] at he; subst he; cases hj
  · simp only [Option.some.injEq, Prod.mk.injEq] at h
    obtain ⟨rfl, rfl⟩ := h
    refine vstep_rmw hth ?_ ?_ ?_
    · intro e he; simp only [List.mem_singleton] at he; subst he; rfl
    · intro e he j hj; simp only [List.mem_singleton] at he; subst he; cases hj
    · intro e he j hj; simp only [List.mem_singleton] at he; subst he; cases hj
  · split at h
    · cases h
      refine ⟨grow_set hth loadView_sub, List.Subset.refl _, ?_, ?_, ?_, ?_⟩
      · intro e he j hj; simp only [List.mem_singleton] at he; subst he; rw [retEv_rel] at hj; cases hj
      · intro e he j id hj; simp only [List.mem_singleton] at he; subst he; rw [retEv_work] at hj; cases hj
      · intro e he hj; simp only [List.mem_singleton] at he; subst he; rw [retEv_rel] at hj; cases hj
      · intro e he j hj; simp only [List.mem_singleton] at he; subst he
        rw [retEv_success hj]
        refine ⟨_, get_set_self hth, ?_⟩
        intro x hx
        simp [Loc.loadView, takeOrder, Order.isAcquire, hx]
    · split at h
      · cases h; exact vstep_goto hth loadView_sub (quiet_one ⟨rfl, rfl, rfl⟩)
      · cases h; exact vstep_goto hth loadView_sub quiet_nil
  · simp only [Option.some.injEq, Prod.mk.injEq] at h
    obtain ⟨rfl, rfl⟩ := h
    refine vstep_rmw hth ?_ ?_ ?_ <;> intro e he <;> cases he
  · split at h <;> (cases h; vgoto hth)
  · cases h; vgoto hth
  · cases h; vgoto hth
  · cases h; vgoto hth
  · cases h; vgoto hth
  · split at h
    · split at h
      · cases h; vgoto hth
      · cases h
    · cases h; vgoto hth
  · simp only [Option.some.injEq, Prod.mk.injEq] at h
    obtain ⟨rfl, rfl⟩ := h
    refine vstep_rmw hth ?_ ?_ ?_
    · intro e he; simp only [List.mem_singleton] at he; subst he; exact retEv_work _ _ _
    · intro e he j hj; simp only [List.mem_singleton] at he; subst he; rw [retEv_rel] at hj; cases hj
    · intro e he j hj; simp only [List.mem_singleton] at he; subst he; exact ⟨retEv_success hj, rfl⟩
  · simp only [Option.some.injEq, Prod.mk.injEq] at h
    obtain ⟨rfl, rfl⟩ := h
    refine vstep_rmw hth ?_ ?_ ?_
    · intro e he; simp only [List.mem_singleton] at he; subst he; rfl
    · intro e he j hj; simp only [List.mem_singleton] at he; subst he; cases hj
    · intro e he j hj; simp only [List.mem_singleton] at he; subst he; cases hj
  · cases h

structure VInv (tr : List Ev) (s : St) : Prop where
  works : ∀ e ∈ tr, ∀ j id, workOf e = some (j, id) → ∃ th, s.ths[j]? = some th ∧ id ∈ th.view
  pub : ∀ id, Published relOf workOf tr id → id ∈ s.word.msg

theorem vinv_exec {n : Nat} {tr : List Ev} {s : St} (h : Exec step (init n) tr s) : VInv tr s := by
  apply Exec.invariant VInv ⟨by simp, fun id hp => absurd hp not_published_nil⟩ ?_ h
  rintro tr s l s' es ⟨h1, h2⟩ hs
  obtain ⟨g1, g2, g3, g4, g5, g6⟩ := step_view hs
  constructor
  · intro e he j id hw
    rcases List.mem_append.mp he with he | he
    · obtain ⟨th, h3, h4⟩ := h1 e he j id hw
      obtain ⟨th', h5, h6⟩ := g1 j th h3
      exact ⟨th', h5, h6 h4⟩
    · exact g4 e he j id hw
  · intro id hp
    rcases published_append hp with hp | ⟨e, he, j, w, hr, hw, hwk⟩
    · exact g2 (h2 id hp)
    · rcases List.mem_append.mp hw with hw | hw
      · obtain ⟨th, h3, h4⟩ := h1 w hw j id hwk
        exact g3 e he j hr th h3 h4
      · have := g5 e he (by rw [hr]; rfl) w hw
        rw [this] at hwk; cases hwk

/-! ## Successful waits -/

theorem success_ret {t u : Nat} {k : Kind} (h : successOf (retEv u k true) = some t) : u = t := by
  cases k <;> (cases h; rfl)

theorem no_nil {e : Ev} (he : e ∈ ([] : List Ev)) : False := nomatch he
theorem no_one {e x : Ev} {t : Nat} (he : e ∈ [x]) (hx : successOf x = none) (h : successOf e = some t) : False := by
  rw [List.mem_singleton.mp he, hx] at h; cases h
theorem no_two {e x y : Ev} {t : Nat} (he : e ∈ [x, y]) (hx : successOf x = none) (hy : successOf y = none)
    (h : successOf e = some t) : False := by
  rcases List.mem_cons.mp he with rfl | he
  · rw [hx] at h; cases h
  · exact no_one he hy h

macro "nosucc" h:ident he:ident hsucc:ident : tactic => `(tactic| (
  exfalso
  have hx := congrArg Prod.snd (Option.some.inj $h)
  simp only at hx
  subst hx
  first
  | exact no_nil $he
  | exact no_one $he rfl $hsucc
  | exact no_two $he rfl rfl $hsucc))

/-- The steps at which a wait reports success: either the fast path saw the flag or the thread is leaving. -/
theorem step_success {s s' : St} {l : Nat × Act} {es : List Ev} {t : Nat} {e : Ev} (h : step s l = some (s', es))
    (he : e ∈ es) (hsucc : successOf e = some t) :
    ∃ pc v, s.ths[t]? = some ⟨pc, v⟩ ∧ ((∃ k, pc = .tryLoad k ∧ isSet s.word.val = true) ∨ ∃ k, pc = .sub k) := by
  obtain ⟨u, a⟩ := l
  unfold step at h
  simp only at h
  split at h
  · cases h
  next th hth =>
  obtain ⟨pc, v⟩ := th
  simp only at h
  split at h
  · nosucc h he hsucc
  · nosucc h he hsucc
  · nosucc h he hsucc
  · nosucc h he hsucc
  · nosucc h he hsucc
  · nosucc h he hsucc
  · split at h <;> nosucc h he hsucc
  · nosucc h he hsucc
  · nosucc h he hsucc
  · next k =>
    split at h
    · next hs =>
      simp only [Option.some.injEq, Prod.mk.injEq] at h
      obtain ⟨_, rfl⟩ := h
      simp only [List.mem_singleton] at he
      subst he
      obtain rfl := success_ret hsucc
      exact ⟨_, _, hth, Or.inl ⟨k, rfl, hs⟩⟩
    · split at h <;> nosucc h he hsucc
  · nosucc h he hsucc
  · split at h <;> nosucc h he hsucc
  · nosucc h he hsucc
  · nosucc h he hsucc
  · nosucc h he hsucc
  · nosucc h he hsucc
  · split at h
    · split at h
      · nosucc h he hsucc
      · cases h
    · nosucc h he hsucc
  · next k =>
    simp only [Option.some.injEq, Prod.mk.injEq] at h
    obtain ⟨_, rfl⟩ := h
    simp only [List.mem_singleton] at he
    subst he
    obtain rfl := success_ret hsucc
    exact ⟨_, _, hth, Or.inr ⟨k, rfl⟩⟩
  · nosucc h he hsucc
  · cases h

end Verif.ManualFutex
