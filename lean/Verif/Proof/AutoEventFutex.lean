import Verif.Base.Count
import Verif.Spec.AutoEventFutex

/-! Invariants of the futex `auto_reset_event`. -/

namespace Verif.AutoFutex

/-- Posts and waiters as natural numbers. -/
def P (w : UInt32) : Nat := w.toNat / 4194304
def W (w : UInt32) : Nat := w.toNat % 4194304

theorem posts_toNat (w : UInt32) : (posts w).toNat = P w := by
  simp [posts, P, UInt32.toNat_shiftRight, Nat.shiftRight_eq_div_pow]

theorem waiters_toNat (w : UInt32) : (waiters w).toNat = W w := by
  have : (4194303 : Nat) = 2 ^ 22 - 1 := rfl
  simp only [waiters, W, waitMask, UInt32.toNat_and]
  show w.toNat &&& 4194303 = _
  rw [this, Nat.and_two_pow_sub_one_eq_mod]

theorem posts_pos {w : UInt32} : posts w > 0 ↔ P w > 0 := by
  rw [← posts_toNat]; exact Iff.rfl
theorem waiters_pos {w : UInt32} : waiters w > 0 ↔ W w > 0 := by
  rw [← waiters_toNat]; exact Iff.rfl
theorem posts_zero {w : UInt32} : posts w = 0 ↔ P w = 0 := by
  rw [← posts_toNat, ← UInt32.toNat_inj]; exact Iff.rfl
theorem waiters_ge {w : UInt32} : waiters w ≥ posts w ↔ P w ≤ W w := by
  rw [← posts_toNat, ← waiters_toNat]; exact Iff.rfl

theorem word_lt (w : UInt32) : w.toNat < 4294967296 := w.toNat_lt

theorem add_post {w : UInt32} (h : P w < 1023) : P (w + postOne) = P w + 1 ∧ W (w + postOne) = W w := by
  have : (w + postOne).toNat = (w.toNat + 4194304) % 4294967296 := by simp [UInt32.toNat_add, postOne]
  have := word_lt w
  simp only [P, W] at *
  omega

theorem add_waiter {w : UInt32} (h : W w < 4194303) : P (w + 1) = P w ∧ W (w + 1) = W w + 1 := by
  have : (w + 1).toNat = (w.toNat + 1) % 4294967296 := by simp [UInt32.toNat_add]
  have := word_lt w
  simp only [P, W] at *
  omega

theorem add_waiter_top {w : UInt32} (h : P w = 0) : P (w + 1) = 0 ∨ W (w + 1) = 0 := by
  have : (w + 1).toNat = (w.toNat + 1) % 4294967296 := by simp [UInt32.toNat_add]
  have := word_lt w
  simp only [P, W] at *
  omega

theorem sub_post {w : UInt32} (h : 0 < P w) : P (w - postOne) = P w - 1 ∧ W (w - postOne) = W w := by
  have : (w - postOne).toNat = (4294967296 - 4194304 + w.toNat) % 4294967296 := by
    simp [UInt32.toNat_sub, postOne]
  have := word_lt w
  simp only [P, W] at *
  omega

theorem sub_both {w : UInt32} (h : 0 < P w) (h' : 0 < W w) :
    P (w - (postOne + 1)) = P w - 1 ∧ W (w - (postOne + 1)) = W w - 1 := by
  have : (w - (postOne + 1)).toNat = (4294967296 - 4194305 + w.toNat) % 4294967296 := by
    simp [UInt32.toNat_sub, postOne]
  have := word_lt w
  simp only [P, W] at *
  omega

theorem sub_waiter {w : UInt32} (h' : 0 < W w) : P (w - 1) = P w ∧ W (w - 1) = W w - 1 := by
  have : (w - 1).toNat = (4294967296 - 1 + w.toNat) % 4294967296 := by simp [UInt32.toNat_sub]
  have := word_lt w
  simp only [P, W] at *
  omega

theorem P_zero : P 0 = 0 := rfl
theorem W_zero : W 0 = 0 := rfl

attribute [irreducible] P W

/-! Classes of threads -/

def PC.signalling : PC → Bool
  | .postSignal => true
  | _ => false
def PC.prePost : PC → Bool
  | .postLoad | .postLoop _ => true
  | _ => false
def PC.awake (pc : PC) : Bool := pc.blocked && !pc.isAsleep
/-- Inside any waiting function. -/
def PC.inWait : PC → Bool
  | .idle | .postLoad | .postLoop _ | .postSignal => false
  | _ => true

def Th.signalling (th : Th) : Bool := th.pc.signalling
def Th.prePost (th : Th) : Bool := th.pc.prePost
def Th.awake (th : Th) : Bool := th.pc.awake
def Th.inWait (th : Th) : Bool := th.pc.inWait

theorem blocked_split (ths : List Th) :
    ths.countP Th.blocked = ths.countP Th.isAsleep + ths.countP Th.awake := by
  apply countP_split
  rintro ⟨pc, v⟩
  cases pc <;> rfl

theorem blocked_le_inWait (ths : List Th) : ths.countP Th.blocked ≤ ths.countP Th.inWait := by
  apply countP_le
  rintro ⟨pc, v⟩
  cases pc <;> simp [Th.blocked, Th.inWait, PC.blocked, PC.inWait]

/-- What the local copies of the word are known to satisfy. -/
def PC.ok : PC → Prop
  | .sleepCall _ e => P e = 0 ∨ W e = 0
  | .cas _ old => 0 < P old
  | _ => True

structure SInv (s : St) : Prop where
  len : s.ths.length ≤ 1023
  waiters : W s.word.val = s.ths.countP Th.blocked
  bound : P s.word.val ≤ s.ths.countP Th.blocked + 1
  wake : 0 < s.ths.countP Th.isAsleep → P s.word.val ≤ s.ths.countP Th.awake + s.ths.countP Th.signalling
  loc : ∀ (i : Nat) (th : Th), s.ths[i]? = some th → th.pc.ok

theorem sinv_init {n : Nat} (hn : n ≤ 1023) : SInv (init n) where
  len := by simpa [init] using hn
  waiters := by simp only [init]; rw [countP_replicate_false rfl]; exact W_zero
  bound := by simp only [init]; rw [P_zero]; omega
  wake := by simp only [init]; rw [countP_replicate_false rfl]; simp
  loc := by intro i th h; rw [get_replicate h]; trivial

/-- Relation between two states connected by steps with trace `es`. -/
structure Bal (s : St) (es : List Ev) (s' : St) : Prop where
  posts : postsMade es + P s.word.val = successes es + P s'.word.val
  calls : postsMade es + s'.ths.countP Th.prePost ≤ postCalls es + s.ths.countP Th.prePost
  waits : successes es + s'.ths.countP Th.inWait ≤ waitCalls es + s.ths.countP Th.inWait

theorem Bal.refl (s : St) : Bal s [] s := ⟨rfl, Nat.le_refl _, Nat.le_refl _⟩

theorem Bal.trans {s s' s'' : St} {a b : List Ev} (h : Bal s a s') (h' : Bal s' b s'') : Bal s (a ++ b) s'' := by
  obtain ⟨h1, h2, h3⟩ := h
  obtain ⟨k1, k2, k3⟩ := h'
  constructor <;> simp only [postsMade, successes, postCalls, waitCalls, List.countP_append] at * <;> omega

def succE : List Ev → Nat := List.countP isSuccess

/-- The effect of one thread moving from `th` to `th'` while the word becomes `w'`. -/
theorem good {s : St} {t : Nat} {th th' : Th} {w' : Loc UInt32} {f' : Nat} {es : List Ev} (I : SInv s)
    (hth : s.ths[t]? = some th) (hok : th'.pc.ok)
    (hW : W w'.val + b2n th.blocked = W s.word.val + b2n th'.blocked)
    (hB : P w'.val ≤ W w'.val + 1)
    (hwake : 0 < s.ths.countP Th.isAsleep + b2n th'.isAsleep - b2n th.isAsleep →
      P w'.val + b2n th.awake + b2n th.signalling ≤
        s.ths.countP Th.awake + s.ths.countP Th.signalling + b2n th'.awake + b2n th'.signalling)
    (hP : postsMade es + P s.word.val = successes es + P w'.val)
    (hC : postsMade es + b2n th'.prePost ≤ postCalls es + b2n th.prePost)
    (hV : successes es + b2n th'.inWait ≤ waitCalls es + b2n th.inWait) :
    SInv ⟨w', s.ths.set t th', f'⟩ ∧ Bal s es ⟨w', s.ths.set t th', f'⟩ := by
  obtain ⟨i1, i2, i3, i4, i5⟩ := I
  have c1 := countP_set (p := Th.blocked) (b := th') hth
  have c2 := countP_set (p := Th.isAsleep) (b := th') hth
  have c3 := countP_set (p := Th.awake) (b := th') hth
  have c4 := countP_set (p := Th.signalling) (b := th') hth
  have c5 := countP_set (p := Th.prePost) (b := th') hth
  have c6 := countP_set (p := Th.inWait) (b := th') hth
  refine ⟨⟨?_, ?_, ?_, ?_, ?_⟩, ⟨?_, ?_, ?_⟩⟩
  · simpa using i1
  · simp only; omega
  · simp only; omega
  · simp only
    intro h
    have := hwake (by omega)
    omega
  · exact forall_set i5 hok
  · exact hP
  · simp only; omega
  · simp only; omega

/-- Pure local moves between program points of the same class. -/
theorem good_goto {s : St} {t : Nat} {th th' : Th} {f' : Nat} {es : List Ev} (I : SInv s)
    (hth : s.ths[t]? = some th) (hok : th'.pc.ok)
    (h1 : th'.blocked = th.blocked)
    (h2 : th'.isAsleep = true → th.isAsleep = true)
    (h3 : th.signalling = false)
    (hP : postsMade es = 0) (hS : successes es = 0)
    (hC : b2n th'.prePost ≤ postCalls es + b2n th.prePost)
    (hV : b2n th'.inWait ≤ waitCalls es + b2n th.inWait) :
    SInv ⟨s.word, s.ths.set t th', f'⟩ ∧ Bal s es ⟨s.word, s.ths.set t th', f'⟩ := by
  have i2 := I.waiters
  have i3 := I.bound
  have i4 := I.wake
  refine good I hth hok ?_ ?_ ?_ ?_ ?_ ?_
  · rw [h1]
  · omega
  · intro hA
    have hb : b2n th.blocked = b2n th.isAsleep + b2n th.awake := by
      obtain ⟨pc, v⟩ := th; cases pc <;> rfl
    have hb' : b2n th'.blocked = b2n th'.isAsleep + b2n th'.awake := by
      obtain ⟨pc, v⟩ := th'; cases pc <;> rfl
    have : b2n th'.isAsleep ≤ b2n th.isAsleep := by
      cases h : th'.isAsleep
      · simp
      · rw [h2 h]; exact Nat.le_refl _
    rw [h1] at hb'
    rw [h3]
    simp only [b2n_false]
    have := i4 (by omega)
    omega
  · omega
  · omega
  · omega

theorem succ_ret (t : Nat) (k : Kind) : successes [retEv t k true] = 1 := by cases k <;> rfl
theorem posted_ret (t : Nat) (k : Kind) (b : Bool) : postsMade [retEv t k b] = 0 := by cases k <;> rfl

/-- Close the side goals of `good_goto`. -/
macro "goto_tac" I:ident hth:ident : tactic => `(tactic| first
    | exact good_goto $I $hth trivial rfl id rfl rfl rfl (Nat.le_refl _) (Nat.le_refl _)
    | exact good_goto $I $hth trivial rfl id rfl rfl rfl (Nat.le_refl _) (Nat.zero_le _)
    | exact good_goto $I $hth trivial rfl id rfl rfl rfl (Nat.zero_le _) (Nat.zero_le _)
    | exact good_goto $I $hth trivial rfl (fun h => nomatch h) rfl rfl rfl (Nat.le_refl _) (Nat.le_refl _))

macro "classes" : tactic => `(tactic| simp only [Loc.rmw, Th.blocked, Th.isAsleep, Th.awake, Th.signalling, Th.prePost,
  Th.inWait, PC.blocked, PC.isAsleep, PC.awake, PC.signalling, PC.prePost, PC.inWait, b2n_true, b2n_false,
  Bool.not_true, Bool.not_false, Bool.and_true, Bool.and_false, Bool.true_and, Bool.false_and,
  succ_ret, posted_ret] at *)

theorem all_awake {ths : List Th} (h : ths.all (fun x => !x.isAsleep) = true) : ths.countP Th.isAsleep = 0 := by
  apply List.countP_eq_zero.mpr
  intro a ha
  have := List.all_eq_true.mp h a ha
  simpa using this

/-- Every step preserves the invariant and the balance of posts and successes. -/
theorem step_good {s s' : St} {l : Nat × Act} {es : List Ev} (I : SInv s) (h : step s l = some (s', es)) :
    SInv s' ∧ Bal s es s' := by
  obtain ⟨t, a⟩ := l
  have i1 := I.len
  have i2 := I.waiters
  have i3 := I.bound
  have i4 := I.wake
  have hsp := blocked_split s.ths
  unfold step at h
  simp only at h
  split at h
  · cases h
  next th hth =>
  obtain ⟨pc, view⟩ := th
  have hloc := I.loc t _ hth
  have l1 := b2n_le_countP (p := Th.blocked) hth
  have l2 := b2n_le_countP (p := Th.isAsleep) hth
  have l3 := b2n_le_countP (p := Th.awake) hth
  have l4 := b2n_le_countP (p := Th.signalling) hth
  have l5 : s.ths.countP Th.blocked + b2n (!(Th.blocked ⟨pc, view⟩)) ≤ s.ths.length := by
    have hd := countP_add_le_length (p := Th.blocked) (q := fun x => !x.blocked) (l := s.ths)
      (by intro a h1 h2; rw [h1] at h2; cases h2)
    have := b2n_le_countP (p := fun x : Th => !x.blocked) hth
    omega
  simp only at h
  split at h
  · cases h; goto_tac I hth
  · cases h; goto_tac I hth
  · cases h; goto_tac I hth
  · cases h; goto_tac I hth
  · cases h; goto_tac I hth
  · cases h; goto_tac I hth
  · -- post: CAS
    next old =>
    split at h
    · next hge =>
      rw [ge_iff_le, ← ge_iff_le, waiters_ge] at hge
      split at h
      · next hw =>
        subst hw
        have l6 : P s.word.val < 1023 := by classes; omega
        obtain ⟨a1, a2⟩ := add_post l6
        split at h
        · next hz =>
          rw [gt_iff_lt, ← gt_iff_lt, waiters_pos] at hz
          simp only [Option.some.injEq, Prod.mk.injEq] at h
          obtain ⟨rfl, rfl⟩ := h
          refine good I hth trivial ?_ ?_ ?_ ?_ ?_ ?_
          · classes; rw [a2]
          · classes; omega
          · classes; omega
          · show 1 + _ = 0 + P (s.word.val + postOne); omega
          · exact Nat.le_refl _
          · exact Nat.le_refl _
        · next hz =>
          rw [waiters_pos] at hz
          simp only [Option.some.injEq, Prod.mk.injEq] at h
          obtain ⟨rfl, rfl⟩ := h
          refine good I hth trivial ?_ ?_ ?_ ?_ ?_ ?_
          · classes; rw [a2]
          · classes; omega
          · classes; omega
          · show 1 + _ = 0 + P (s.word.val + postOne); omega
          · exact Nat.le_refl _
          · exact Nat.le_refl _
      · cases h; goto_tac I hth
    · cases h; goto_tac I hth
  · split at h
    · cases h; goto_tac I hth
    · cases h
  · -- futex_signal wakes j
    next j =>
    split at h
    · next k v hj =>
      cases h
      have hjt : t ≠ j := by
        intro hh; subst hh; rw [hth] at hj; cases hj
      have hj' : (s.ths.set t ⟨.idle, view⟩)[j]? = some ⟨.asleep k, v⟩ := by rw [get_set_ne hjt]; exact hj
      obtain ⟨i1, i2, i3, i4, i5⟩ := I
      have c1 := countP_set (p := Th.blocked) (b := ⟨.idle, view⟩) hth
      have c2 := countP_set (p := Th.isAsleep) (b := ⟨.idle, view⟩) hth
      have c3 := countP_set (p := Th.awake) (b := ⟨.idle, view⟩) hth
      have c4 := countP_set (p := Th.signalling) (b := ⟨.idle, view⟩) hth
      have c5 := countP_set (p := Th.prePost) (b := ⟨.idle, view⟩) hth
      have c6 := countP_set (p := Th.inWait) (b := ⟨.idle, view⟩) hth
      have d1 := countP_set (p := Th.blocked) (b := ⟨.reload k, v⟩) hj'
      have d2 := countP_set (p := Th.isAsleep) (b := ⟨.reload k, v⟩) hj'
      have d3 := countP_set (p := Th.awake) (b := ⟨.reload k, v⟩) hj'
      have d4 := countP_set (p := Th.signalling) (b := ⟨.reload k, v⟩) hj'
      have d5 := countP_set (p := Th.prePost) (b := ⟨.reload k, v⟩) hj'
      have d6 := countP_set (p := Th.inWait) (b := ⟨.reload k, v⟩) hj'
      have l7 := countP_pos_of_get (p := Th.isAsleep) hj rfl
      change _ + 0 = _ + 0 at c1
      change _ + 0 = _ + 0 at c2
      change _ + 0 = _ + 0 at c3
      change _ + 1 = _ + 0 at c4
      change _ + 0 = _ + 0 at c5
      change _ + 0 = _ + 0 at c6
      change _ + 1 = _ + 1 at d1
      change _ + 1 = _ + 0 at d2
      change _ + 0 = _ + 1 at d3
      change _ + 0 = _ + 0 at d4
      change _ + 0 = _ + 0 at d5
      change _ + 1 = _ + 1 at d6
      refine ⟨⟨?_, ?_, ?_, ?_, ?_⟩, ⟨rfl, ?_, ?_⟩⟩
      · simpa using i1
      · simp only; omega
      · simp only; omega
      · simp only; intro _; have := i4 (by omega); omega
      · exact forall_set (forall_set i5 trivial) trivial
      · show 0 + _ ≤ 0 + _; simp only; omega
      · show 0 + _ ≤ 0 + _; simp only; omega
    · cases h
  · split at h
    · next hall =>
      have := all_awake hall
      cases h
      refine good I hth trivial ?_ ?_ ?_ rfl (Nat.le_refl _) (Nat.le_refl _)
      · rfl
      · omega
      · classes; omega
    · cases h
  · cases h; goto_tac I hth
  · -- try_wait: take
    next k old =>
    split at h
    · next hp =>
      rw [posts_pos] at hp
      split at h
      · next hw =>
        subst hw
        obtain ⟨a1, a2⟩ := sub_post hp
        cases h
        refine good I hth trivial ?_ ?_ ?_ ?_ ?_ ?_
        · classes; omega
        · classes; omega
        · classes; omega
        · show _ = _ + P (s.word.val - postOne); rw [succ_ret, posted_ret]; omega
        · rw [posted_ret]; exact Nat.zero_le _
        · rw [succ_ret]; exact Nat.le_add_left _ _
      · cases h; goto_tac I hth
    · split at h
      · cases h; goto_tac I hth
      · cases h; goto_tac I hth
  · split at h
    · cases h; goto_tac I hth
    · cases h
  · split at h
    · cases h
    · cases h; goto_tac I hth
  · -- fetch_add
    next k =>
    cases h
    have : W s.word.val < 4194303 := by classes; omega
    obtain ⟨a1, a2⟩ := add_waiter this
    refine good I hth trivial ?_ ?_ ?_ ?_ (Nat.le_refl _) (Nat.le_refl _)
    · classes; omega
    · classes; omega
    · classes; omega
    · show 0 + _ = 0 + P (s.word.val + 1); omega
  · next k old =>
    split at h
    · next hz =>
      rw [posts_zero] at hz
      cases h
      exact good_goto I hth (add_waiter_top hz) rfl id rfl rfl rfl (Nat.le_refl _) (Nat.le_refl _)
    · next hz =>
      rw [posts_zero] at hz
      cases h
      exact good_goto I hth (Nat.pos_of_ne_zero hz) rfl id rfl rfl rfl (Nat.le_refl _) (Nat.le_refl _)
  · -- falling asleep
    next k e =>
    split at h
    · next hw =>
      cases h
      subst hw
      change P s.word.val = 0 ∨ W s.word.val = 0 at hloc
      refine good I hth trivial ?_ ?_ ?_ rfl (Nat.le_refl _) (Nat.le_refl _)
      · rfl
      · omega
      · classes; omega
    · cases h; goto_tac I hth
  · cases h; goto_tac I hth
  · cases h; goto_tac I hth
  · cases h; goto_tac I hth
  · cases h; goto_tac I hth
  · split at h
    · next hp => cases h; rw [posts_pos] at hp; exact good_goto I hth hp rfl id rfl rfl rfl (Nat.le_refl _) (Nat.le_refl _)
    · next hp =>
      cases h; rw [posts_pos] at hp
      exact good_goto I hth (Or.inl (by omega)) rfl id rfl rfl rfl (Nat.le_refl _) (Nat.le_refl _)
  · -- take after blocking
    next k old =>
    split at h
    · next hw =>
      subst hw
      change 0 < P s.word.val at hloc
      have : 0 < W s.word.val := by classes; omega
      obtain ⟨a1, a2⟩ := sub_both hloc this
      cases h
      refine good I hth trivial ?_ ?_ ?_ ?_ ?_ ?_
      · classes; omega
      · classes; omega
      · classes; omega
      · show _ = _ + P (s.word.val - (postOne + 1)); rw [succ_ret, posted_ret]; omega
      · rw [posted_ret]; exact Nat.zero_le _
      · rw [succ_ret]; exact Nat.le_add_left _ _
    · cases h; goto_tac I hth
  · cases h; goto_tac I hth
  · cases h; goto_tac I hth
  · next old =>
    split at h
    · next hz =>
      rw [posts_zero] at hz
      split at h
      · next hw =>
        subst hw
        cases h
        have : 0 < W s.word.val := by classes; omega
        obtain ⟨a1, a2⟩ := sub_waiter this
        refine good I hth trivial ?_ ?_ ?_ ?_ ?_ ?_
        · classes; omega
        · classes; omega
        · classes; omega
        · show 0 + _ = 0 + P (s.word.val - 1); omega
        · exact Nat.zero_le _
        · exact Nat.zero_le _
      · cases h; goto_tac I hth
    · next hz =>
      rw [posts_zero] at hz
      split at h
      · next hw =>
        subst hw
        cases h
        have : 0 < W s.word.val := by classes; omega
        obtain ⟨a1, a2⟩ := sub_both (by omega : 0 < P s.word.val) this
        refine good I hth trivial ?_ ?_ ?_ ?_ ?_ ?_
        · classes; omega
        · classes; omega
        · classes; omega
        · show 0 + _ = 1 + P (s.word.val - (postOne + 1)); omega
        · exact Nat.zero_le _
        · exact Nat.le_refl _
      · cases h; goto_tac I hth
  · cases h; goto_tac I hth
  · cases h

/-- The invariant and the balance along executions from any good state. -/
theorem exec_good {s s' : St} {tr : List Ev} (I : SInv s) (h : Exec step s tr s') : SInv s' ∧ Bal s tr s' := by
  apply Exec.invariant (fun tr s' => SInv s' ∧ Bal s tr s') ⟨I, Bal.refl s⟩ ?_ h
  rintro tr s1 l s2 es ⟨J, B⟩ hs
  obtain ⟨J', B'⟩ := step_good J hs
  exact ⟨J', B.trans B'⟩

/-! ## Views -/

structure VStep (s : St) (es : List Ev) (s' : St) : Prop where
  grow : ∀ (j : Nat) (th : Th), s.ths[j]? = some th → ∃ th', s'.ths[j]? = some th' ∧ th.view ⊆ th'.view
  msg : s.word.msg ⊆ s'.word.msg
  rel : ∀ e ∈ es, ∀ j, relOf e = some j → ∀ th, s.ths[j]? = some th → th.view ⊆ s'.word.msg
  work : ∀ e ∈ es, ∀ j id, workOf e = some (j, id) → ∃ th', s'.ths[j]? = some th' ∧ id ∈ th'.view
  noBoth : ∀ e ∈ es, (relOf e).isSome = true → ∀ e' ∈ es, workOf e' = none
  succ : ∀ e ∈ es, ∀ j, successOf e = some j → ∃ th', s'.ths[j]? = some th' ∧ s.word.msg ⊆ th'.view

theorem grow_set {l : List Th} {t : Nat} {th th' : Th} (hth : l[t]? = some th) (hsub : th.view ⊆ th'.view) :
    ∀ (j : Nat) (x : Th), l[j]? = some x → ∃ x', (l.set t th')[j]? = some x' ∧ x.view ⊆ x'.view := by
  intro j x hx
  by_cases hj : t = j
  · subst hj
    rw [hth] at hx; cases hx
    exact ⟨th', get_set_self hth, hsub⟩
  · exact ⟨x, by rw [get_set_ne hj]; exact hx, List.Subset.refl _⟩

def quiet (e : Ev) : Prop := relOf e = none ∧ workOf e = none ∧ successOf e = none

theorem vstep_goto {s : St} {t : Nat} {pc pc' : PC} {v : View} {f' : Nat} {es : List Ev}
    (hth : s.ths[t]? = some ⟨pc, v⟩) (hq : ∀ e ∈ es, quiet e) :
    VStep s es ⟨s.word, s.ths.set t ⟨pc', v⟩, f'⟩ where
  grow := grow_set hth (List.Subset.refl _)
  msg := List.Subset.refl _
  rel := by intro e he j hr; rw [(hq e he).1] at hr; cases hr
  work := by intro e he j id hr; rw [(hq e he).2.1] at hr; cases hr
  noBoth := by intro e he hr; rw [(hq e he).1] at hr; cases hr
  succ := by intro e he j hr; rw [(hq e he).2.2] at hr; cases hr

theorem vstep_rmw {s : St} {t : Nat} {pc pc' : PC} {v : View} {f' : Nat} {es : List Ev} {o : Order} {w : UInt32}
    (hth : s.ths[t]? = some ⟨pc, v⟩)
    (hw : ∀ e ∈ es, workOf e = none)
    (hr : ∀ e ∈ es, ∀ j, relOf e = some j → j = t ∧ o.isRelease = true)
    (hs : ∀ e ∈ es, ∀ j, successOf e = some j → j = t ∧ o.isAcquire = true) :
    VStep s es ⟨(s.word.rmw o v w).1, s.ths.set t ⟨pc', (s.word.rmw o v w).2⟩, f'⟩ where
  grow := by
    refine grow_set hth ?_
    simp only [Loc.rmw]
    intro x hx
    split <;> simp [hx]
  msg := by
    simp only [Loc.rmw]
    intro x hx
    split <;> simp [hx]
  rel := by
    intro e he j hj th hj'
    obtain ⟨rfl, ho⟩ := hr e he j hj
    rw [hth] at hj'; cases hj'
    simp only [Loc.rmw, ho, if_true]
    intro x hx
    split <;> simp [hx]
  work := by intro e he j id h; rw [hw e he] at h; cases h
  noBoth := by intro e he _ e' he'; exact hw e' he'
  succ := by
    intro e he j hj
    obtain ⟨rfl, ho⟩ := hs e he j hj
    refine ⟨_, get_set_self hth, ?_⟩
    simp only [Loc.rmw, ho, if_true]
    intro x hx
    simp [hx]

theorem retEv_success {t j : Nat} {k : Kind} (h : successOf (retEv t k true) = some j) : j = t := by
  cases k <;> (cases h; rfl)
theorem retEv_rel (t : Nat) (k : Kind) (b : Bool) : relOf (retEv t k b) = none := by cases k <;> rfl
theorem retEv_work (t : Nat) (k : Kind) (b : Bool) : workOf (retEv t k b) = none := by cases k <;> rfl

theorem quiet_nil : ∀ e ∈ ([] : List Ev), quiet e := by intro e he; cases he
theorem quiet_one {e : Ev} (h : quiet e) : ∀ e' ∈ [e], quiet e' := by
  intro e' he; simp only [List.mem_singleton] at he; subst he; exact h

theorem vstep_take {s : St} {t : Nat} {pc pc' : PC} {v : View} {f' : Nat} {e : Ev} {w : UInt32}
    (hth : s.ths[t]? = some ⟨pc, v⟩) (hw : workOf e = none) (hr : relOf e = none)
    (hs : ∀ j, successOf e = some j → j = t) :
    VStep s [e] ⟨(s.word.rmw takeOrder v w).1, s.ths.set t ⟨pc', (s.word.rmw takeOrder v w).2⟩, f'⟩ := by
  refine vstep_rmw hth ?_ ?_ ?_
  · intro e' he; simp only [List.mem_singleton] at he; subst he; exact hw
  · intro e' he j hj; simp only [List.mem_singleton] at he; subst he; rw [hr] at hj; cases hj
  · intro e' he j hj; simp only [List.mem_singleton] at he; subst he; exact ⟨hs j hj, rfl⟩

macro "vgoto" hth:ident : tactic => `(tactic| first
  | exact vstep_goto $hth quiet_nil
  | exact vstep_goto $hth (quiet_one ⟨rfl, rfl, rfl⟩))

theorem step_view {s s' : St} {l : Nat × Act} {es : List Ev} (h : step s l = some (s', es)) : VStep s es s' := by
  obtain ⟨t, a⟩ := l
  unfold step at h
  simp only at h
  split at h
  · cases h
  next th hth =>
  obtain ⟨pc, v⟩ := th
  simp only at h
  split at h
  · cases h; vgoto hth
  · cases h; vgoto hth
  · cases h; vgoto hth
  · cases h; vgoto hth
  · cases h
    refine ⟨grow_set hth (List.subset_cons_self _ _), List.Subset.refl _, ?_, ?_, ?_, ?_⟩
    · intro e he j hj; simp only [List.mem_singleton] at he; subst he; cases hj
    · intro e he j id hj; simp only [List.mem_singleton] at he; subst he; cases hj
      exact ⟨_, get_set_self hth, by simp⟩
    · intro e he hj; simp only [List.mem_singleton] at he; subst he; cases hj
    · intro e he j hj; simp only [List.mem_singleton] at he; subst he; cases hj
  · cases h; vgoto hth
  · split at h
    · split at h
      · split at h
        · simp only [Option.some.injEq, Prod.mk.injEq] at h
          obtain ⟨rfl, rfl⟩ := h
          refine vstep_rmw hth ?_ ?_ ?_
          · intro e he; simp only [List.mem_singleton] at he; subst he; rfl
          · intro e he j hj; simp only [List.mem_singleton] at he; subst he; cases hj; exact ⟨rfl, rfl⟩
          · intro e he j hj; simp only [List.mem_singleton] at he; subst he; cases hj
        · simp only [Option.some.injEq, Prod.mk.injEq] at h
          obtain ⟨rfl, rfl⟩ := h
          refine vstep_rmw hth ?_ ?_ ?_
          · intro e he
            simp only [List.mem_cons, List.not_mem_nil, or_false] at he
            rcases he with rfl | rfl <;> rfl
          · intro e he j hj
            simp only [List.mem_cons, List.not_mem_nil, or_false] at he
            rcases he with rfl | rfl <;> cases hj
            exact ⟨rfl, rfl⟩
          · intro e he j hj
            simp only [List.mem_cons, List.not_mem_nil, or_false] at he
            rcases he with rfl | rfl <;> cases hj
      · cases h; vgoto hth
    · cases h; vgoto hth
  · split at h
    · cases h; vgoto hth
    · cases h
  · next j =>
    split at h
    · next k w hj =>
      cases h
      have hjt : t ≠ j := by
        intro hh; subst hh; rw [hth] at hj; cases hj
      have hj' : (s.ths.set t ⟨.idle, v⟩)[j]? = some ⟨.asleep k, w⟩ := by rw [get_set_ne hjt]; exact hj
      refine ⟨?_, List.Subset.refl _, ?_, ?_, ?_, ?_⟩
      · intro i x hx
        obtain ⟨x', h1, h2⟩ := grow_set (th' := ⟨.idle, v⟩) hth (List.Subset.refl _) i x hx
        obtain ⟨x'', h3, h4⟩ := grow_set (th' := ⟨.reload k, w⟩) hj' (List.Subset.refl _) i x' h1
        exact ⟨x'', h3, List.Subset.trans h2 h4⟩
      · intro e he j hj; simp only [List.mem_singleton] at he; subst he; cases hj
      · intro e he j id hj; simp only [List.mem_singleton] at he; subst he; cases hj
      · intro e he hj; simp only [List.mem_singleton] at he; subst he; cases hj
      · intro e he j hj; simp only [List.mem_singleton] at he; subst he; cases hj
    · cases h
  · split at h
    · cases h; vgoto hth
    · cases h
  · cases h; vgoto hth
  · split at h
    · split at h
      · simp only [Option.some.injEq, Prod.mk.injEq] at h
        obtain ⟨rfl, rfl⟩ := h
        exact vstep_take hth (retEv_work _ _ _) (retEv_rel _ _ _) (fun _ => retEv_success)
      · cases h; vgoto hth
    · split at h
      · cases h; vgoto hth
      · cases h; vgoto hth
  · split at h
    · cases h; vgoto hth
    · cases h
  · split at h
    · cases h
    · cases h; vgoto hth
  · simp only [Option.some.injEq, Prod.mk.injEq] at h
    obtain ⟨rfl, rfl⟩ := h
    refine vstep_rmw hth ?_ ?_ ?_ <;> intro e he <;> cases he
  · split at h <;> (cases h; vgoto hth)
  · split at h <;> (cases h; vgoto hth)
  · cases h; vgoto hth
  · cases h; vgoto hth
  · cases h; vgoto hth
  · cases h; vgoto hth
  · split at h <;> (cases h; vgoto hth)
  · split at h
    · simp only [Option.some.injEq, Prod.mk.injEq] at h
      obtain ⟨rfl, rfl⟩ := h
      exact vstep_take hth (retEv_work _ _ _) (retEv_rel _ _ _) (fun _ => retEv_success)
    · cases h; vgoto hth
  · cases h; vgoto hth
  · cases h; vgoto hth
  · split at h
    · split at h
      · simp only [Option.some.injEq, Prod.mk.injEq] at h
        obtain ⟨rfl, rfl⟩ := h
        refine vstep_rmw hth ?_ ?_ ?_
        · intro e he; simp only [List.mem_singleton] at he; subst he; rfl
        · intro e he j hj; simp only [List.mem_singleton] at he; subst he; cases hj
        · intro e he j hj; simp only [List.mem_singleton] at he; subst he; cases hj
      · cases h; vgoto hth
    · split at h
      · simp only [Option.some.injEq, Prod.mk.injEq] at h
        obtain ⟨rfl, rfl⟩ := h
        exact vstep_take hth rfl rfl (fun j hj => by cases hj; rfl)
      · cases h; vgoto hth
  · cases h; vgoto hth
  · cases h

structure VInv (tr : List Ev) (s : St) : Prop where
  works : ∀ e ∈ tr, ∀ j id, workOf e = some (j, id) → ∃ th, s.ths[j]? = some th ∧ id ∈ th.view
  pub : ∀ id, Published relOf workOf tr id → id ∈ s.word.msg

theorem vinv_exec {n : Nat} {tr : List Ev} {s : St} (h : Exec step (init n) tr s) : VInv tr s := by
  apply Exec.invariant VInv ⟨by simp, fun id hp => absurd hp not_published_nil⟩ ?_ h
  rintro tr s l s' es ⟨h1, h2⟩ hs
  obtain ⟨g1, g2, g3, g4, g5, g6⟩ := step_view hs
  constructor
  · intro e he j id hw
    rcases List.mem_append.mp he with he | he
    · obtain ⟨th, h3, h4⟩ := h1 e he j id hw
      obtain ⟨th', h5, h6⟩ := g1 j th h3
      exact ⟨th', h5, h6 h4⟩
    · exact g4 e he j id hw
  · intro id hp
    rcases published_append hp with hp | ⟨e, he, j, w, hr, hw, hwk⟩
    · exact g2 (h2 id hp)
    · rcases List.mem_append.mp hw with hw | hw
      · obtain ⟨th, h3, h4⟩ := h1 w hw j id hwk
        exact g3 e he j hr th h3 h4
      · have := g5 e he (by rw [hr]; rfl) w hw
        rw [this] at hwk; cases hwk

/-! ## Failing timed waits -/

theorem not_mem_ret {t u : Nat} {k : Kind} : Ev.timedDone t false ∉ [retEv u k true] := by
  cases k <;> simp [retEv]

macro "nope" h:ident he:ident : tactic => `(tactic| (
  exfalso
  have hx := congrArg Prod.snd (Option.some.inj $h)
  simp only at hx
  subst hx
  first
  | exact not_mem_ret $he
  | (simp at $he:ident; done)))

/-- The steps at which a timed wait returns false. -/
theorem step_timed_false {s s' : St} {l : Nat × Act} {es : List Ev} {t : Nat} (h : step s l = some (s', es))
    (he : Ev.timedDone t false ∈ es) :
    es = [Ev.timedDone t false] ∧ ∃ pc v, s.ths[t]? = some ⟨pc, v⟩ ∧ s'.ths = s.ths.set t ⟨.idle, v⟩ ∧
      ((pc.blocked = false ∧ s'.word = s.word) ∨
       (pc.blocked = true ∧ posts s.word.val = 0 ∧ s'.word.val = s.word.val - 1)) := by
  obtain ⟨u, a⟩ := l
  unfold step at h
  simp only at h
  split at h
  · cases h
  next th hth =>
  obtain ⟨pc, v⟩ := th
  simp only at h
  split at h
  · nope h he
  · nope h he
  · nope h he
  · nope h he
  · nope h he
  · nope h he
  · split at h
    · split at h
      · split at h
        · nope h he
        · nope h he
      · nope h he
    · nope h he
  · split at h
    · nope h he
    · cases h
  · split at h
    · nope h he
    · cases h
  · split at h
    · nope h he
    · cases h
  · nope h he
  · split at h
    · split at h
      · nope h he
      · nope h he
    · split at h
      · nope h he
      · nope h he
  · split at h
    · nope h he
    · cases h
  · split at h
    · cases h
    · cases h
      simp only [List.mem_singleton, Ev.timedDone.injEq, and_true] at he
      subst he
      exact ⟨rfl, _, _, hth, rfl, Or.inl ⟨rfl, rfl⟩⟩
  · nope h he
  · split at h <;> nope h he
  · split at h <;> nope h he
  · nope h he
  · nope h he
  · nope h he
  · nope h he
  · split at h <;> nope h he
  · split at h <;> nope h he
  · nope h he
  · nope h he
  · split at h
    · next hz =>
      split at h
      · next hw =>
        subst hw
        simp only [Option.some.injEq, Prod.mk.injEq] at h
        obtain ⟨rfl, rfl⟩ := h
        simp only [List.mem_singleton, Ev.timedDone.injEq, and_true] at he
        subst he
        exact ⟨rfl, _, _, hth, rfl, Or.inr ⟨rfl, hz, rfl⟩⟩
      · nope h he
    · split at h
      · nope h he
      · nope h he
  · nope h he
  · cases h

end Verif.AutoFutex
