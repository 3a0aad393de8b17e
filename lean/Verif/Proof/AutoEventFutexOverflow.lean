import Verif.Proof.AutoEventFutex

/-! The ten-bit post counter of the futex `auto_reset_event` wraps around: construction of the execution. -/

namespace Verif.AutoFutex

theorem get_mid {α : Type} {A B : List α} {x : α} {i : Nat} (h : A.length = i) : (A ++ x :: B)[i]? = some x := by
  subst h; simp

theorem set_mid {α : Type} {A B : List α} {x y : α} {i : Nat} (h : A.length = i) :
    (A ++ x :: B).set i y = A ++ y :: B := by
  subst h; simp

/-- An execution with a given number of completed posts and no successful wait. -/
def Path (s : St) (m : Nat) (s' : St) : Prop :=
  ∃ tr, Exec step s tr s' ∧ postsDone tr = m ∧ successes tr = 0

theorem Path.refl (s : St) : Path s 0 s := ⟨[], Exec.init, rfl, rfl⟩

theorem Path.trans {s s' s'' : St} {a b : Nat} (h : Path s a s') (h' : Path s' b s'') : Path s (a + b) s'' := by
  obtain ⟨t1, e1, p1, q1⟩ := h
  obtain ⟨t2, e2, p2, q2⟩ := h'
  refine ⟨t1 ++ t2, e1.trans e2, ?_, ?_⟩
  · simp only [postsDone, List.countP_append] at *; omega
  · simp only [successes, List.countP_append] at *; omega

theorem Path.step {s s' : St} {l : Nat × Act} {es : List Ev} (h : step s l = some (s', es)) (hs : successes es = 0) :
    Path s (postsDone es) s' := ⟨es, Exec.single h, rfl, hs⟩

/-- One thread goes to sleep. -/
theorem path_sleep {w : UInt32} {A B : List Th} {i : Nat} (hi : A.length = i) (hP : posts w = 0) :
    Path ⟨⟨w, []⟩, A ++ ⟨.idle, []⟩ :: B, 0⟩ 0 ⟨⟨w + 1, []⟩, A ++ ⟨.asleep .wait, []⟩ :: B, 0⟩ := by
  have hP' : ¬ posts w > 0 := by rw [posts_pos]; rw [posts_zero] at hP; omega
  have s1 : step ⟨⟨w, []⟩, A ++ ⟨.idle, []⟩ :: B, 0⟩ (i, .call .wait) =
      some (⟨⟨w, []⟩, A ++ ⟨.tryLoad .wait, []⟩ :: B, 0⟩, [.called i .wait]) := by
    simp only [step, get_mid hi, set_mid hi]
  have s2 : step ⟨⟨w, []⟩, A ++ ⟨.tryLoad .wait, []⟩ :: B, 0⟩ (i, .load w) =
      some (⟨⟨w, []⟩, A ++ ⟨.tryLoop .wait w, []⟩ :: B, 0⟩, []) := by
    simp only [step, get_mid hi, set_mid hi]
  have s3 : step ⟨⟨w, []⟩, A ++ ⟨.tryLoop .wait w, []⟩ :: B, 0⟩ (i, .go) =
      some (⟨⟨w, []⟩, A ++ ⟨.add .wait, []⟩ :: B, 0⟩, []) := by
    simp only [step, get_mid hi, set_mid hi, if_neg hP', reduceCtorEq, if_false]
  have s4 : step ⟨⟨w, []⟩, A ++ ⟨.add .wait, []⟩ :: B, 0⟩ (i, .go) =
      some (⟨⟨w + 1, []⟩, A ++ ⟨.waitTop .wait w, []⟩ :: B, 0⟩, []) := by
    simp [step, get_mid hi, set_mid hi, Loc.rmw, countOrder, Order.isAcquire, Order.isRelease]
  have s5 : step ⟨⟨w + 1, []⟩, A ++ ⟨.waitTop .wait w, []⟩ :: B, 0⟩ (i, .go) =
      some (⟨⟨w + 1, []⟩, A ++ ⟨.sleepCall .wait (w + 1), []⟩ :: B, 0⟩, []) := by
    simp only [step, get_mid hi, set_mid hi, if_pos hP]
  have s6 : step ⟨⟨w + 1, []⟩, A ++ ⟨.sleepCall .wait (w + 1), []⟩ :: B, 0⟩ (i, .go) =
      some (⟨⟨w + 1, []⟩, A ++ ⟨.asleep .wait, []⟩ :: B, 0⟩, []) := by
    simp only [step, get_mid hi, set_mid hi, if_true]
  exact (((((Path.step s1 rfl).trans (Path.step s2 rfl)).trans (Path.step s3 rfl)).trans (Path.step s4 rfl)).trans
    (Path.step s5 rfl)).trans (Path.step s6 rfl)

/-- The woken threads find the counter zero and go back to sleep. -/
theorem path_resleep {w : UInt32} {A B : List Th} {i : Nat} (hi : A.length = i) (hP : posts w = 0) :
    Path ⟨⟨w, []⟩, A ++ ⟨.reload .wait, []⟩ :: B, 0⟩ 0 ⟨⟨w, []⟩, A ++ ⟨.asleep .wait, []⟩ :: B, 0⟩ := by
  have hP' : ¬ posts w > 0 := by rw [posts_pos]; rw [posts_zero] at hP; omega
  have s1 : step ⟨⟨w, []⟩, A ++ ⟨.reload .wait, []⟩ :: B, 0⟩ (i, .load w) =
      some (⟨⟨w, []⟩, A ++ ⟨.sleepCall .wait w, []⟩ :: B, 0⟩, []) := by
    simp only [step, get_mid hi, set_mid hi, if_neg hP']
  have s2 : step ⟨⟨w, []⟩, A ++ ⟨.sleepCall .wait w, []⟩ :: B, 0⟩ (i, .go) =
      some (⟨⟨w, []⟩, A ++ ⟨.asleep .wait, []⟩ :: B, 0⟩, []) := by
    simp only [step, get_mid hi, set_mid hi, if_true]
  exact (Path.step s1 rfl).trans (Path.step s2 rfl)

/-- One post that wakes the sleeper in the middle. -/
theorem path_post {w : UInt32} {A B : List Th} {i j : Nat} (hi : A.length = i) (hj : i + 1 + B.length = j)
    (hge : waiters w ≥ posts w) (hpos : waiters w > 0) :
    Path ⟨⟨w, []⟩, A ++ ⟨.asleep .wait, []⟩ :: (B ++ [⟨.idle, []⟩]), 0⟩ 1
      ⟨⟨w + postOne, []⟩, A ++ ⟨.reload .wait, []⟩ :: (B ++ [⟨.idle, []⟩]), 0⟩ := by
  have e : ∀ (x y : Th), A ++ x :: (B ++ [y]) = (A ++ x :: B) ++ y :: [] := by intro x y; simp
  have hl : ∀ x : Th, (A ++ x :: B).length = j := by intro x; simp; omega
  have s1 : step ⟨⟨w, []⟩, A ++ ⟨.asleep .wait, []⟩ :: (B ++ [⟨.idle, []⟩]), 0⟩ (j, .call .post) =
      some (⟨⟨w, []⟩, A ++ ⟨.asleep .wait, []⟩ :: (B ++ [⟨.postLoad, []⟩]), 0⟩, [.called j .post]) := by
    rw [e, e]
    simp only [step, get_mid (hl _), set_mid (hl _)]
  have s2 : step ⟨⟨w, []⟩, A ++ ⟨.asleep .wait, []⟩ :: (B ++ [⟨.postLoad, []⟩]), 0⟩ (j, .load w) =
      some (⟨⟨w, []⟩, A ++ ⟨.asleep .wait, []⟩ :: (B ++ [⟨.postLoop w, []⟩]), 0⟩, []) := by
    rw [e, e]
    simp only [step, get_mid (hl _), set_mid (hl _)]
  have s3 : step ⟨⟨w, []⟩, A ++ ⟨.asleep .wait, []⟩ :: (B ++ [⟨.postLoop w, []⟩]), 0⟩ (j, .go) =
      some (⟨⟨w + postOne, []⟩, A ++ ⟨.asleep .wait, []⟩ :: (B ++ [⟨.postSignal, []⟩]), 0⟩, [.posted j]) := by
    rw [e, e]
    simp only [step, get_mid (hl _), set_mid (hl _), if_pos hge, if_pos hpos, if_true, Loc.rmw, postOrder,
      Order.isAcquire, Order.isRelease, List.append_nil, Bool.false_eq_true, if_false]
  have s4 : step ⟨⟨w + postOne, []⟩, A ++ ⟨.asleep .wait, []⟩ :: (B ++ [⟨.postSignal, []⟩]), 0⟩ (j, .wake i) =
      some (⟨⟨w + postOne, []⟩, A ++ ⟨.reload .wait, []⟩ :: (B ++ [⟨.idle, []⟩]), 0⟩, [.postDone j]) := by
    have g1 : (A ++ (⟨.asleep .wait, []⟩ : Th) :: (B ++ [⟨.postSignal, []⟩]))[j]? = some ⟨.postSignal, []⟩ := by
      rw [e]; exact get_mid (hl _)
    have g2 : (A ++ (⟨.asleep .wait, []⟩ : Th) :: (B ++ [⟨.postSignal, []⟩])).set j ⟨.idle, []⟩ =
        A ++ (⟨.asleep .wait, []⟩ : Th) :: (B ++ [⟨.idle, []⟩]) := by
      rw [e, e]; exact set_mid (hl _)
    simp only [step, g1, get_mid hi, g2, set_mid hi]
  exact (((Path.step s1 rfl).trans (Path.step s2 rfl)).trans (Path.step s3 rfl)).trans (Path.step s4 rfl)

/-- The states of the construction: `a` threads woken up, `b` asleep, `c` not yet waiting, and the poster. -/
def St3 (w : UInt32) (a b c : Nat) : St :=
  ⟨⟨w, []⟩, List.replicate a ⟨.reload .wait, []⟩ ++ (List.replicate b ⟨.asleep .wait, []⟩ ++
    (List.replicate c ⟨.idle, []⟩ ++ [⟨.idle, []⟩])), 0⟩

theorem init_eq (k : Nat) : init (k + 1) = St3 0 0 0 k := by
  simp only [init, St3, List.replicate_zero, List.nil_append]
  rw [List.replicate_succ']

theorem P_ofNat {n : Nat} (h : n < 4294967296) : P (UInt32.ofNat n) = n / 4194304 := by
  unfold P; rw [UInt32.toNat_ofNat_of_lt' h]
theorem W_ofNat {n : Nat} (h : n < 4294967296) : W (UInt32.ofNat n) = n % 4194304 := by
  unfold W; rw [UInt32.toNat_ofNat_of_lt' h]

theorem path_sleep_all (c b : Nat) (h : b + c < 4194304) :
    Path (St3 (UInt32.ofNat b) 0 b c) 0 (St3 (UInt32.ofNat (b + c)) 0 (b + c) 0) := by
  induction c generalizing b with
  | zero => exact Path.refl _
  | succ c ih =>
    have h1 := path_sleep (w := UInt32.ofNat b) (A := List.replicate b ⟨.asleep .wait, []⟩)
      (B := List.replicate c ⟨.idle, []⟩ ++ [⟨.idle, []⟩]) (i := b) (by simp)
      (by rw [posts_zero, P_ofNat (by omega)]; omega)
    have h2 := ih (b + 1) (by omega)
    have hw : UInt32.ofNat b + 1 = UInt32.ofNat (b + 1) := by
      rw [UInt32.ofNat_add]; rfl
    rw [hw] at h1
    have e1 : St3 (UInt32.ofNat b) 0 b (c + 1) = ⟨⟨UInt32.ofNat b, []⟩, List.replicate b ⟨.asleep .wait, []⟩ ++
        ⟨.idle, []⟩ :: (List.replicate c ⟨.idle, []⟩ ++ [⟨.idle, []⟩]), 0⟩ := by
      simp [St3, List.replicate_succ]
    have e2 : St3 (UInt32.ofNat (b + 1)) 0 (b + 1) c = ⟨⟨UInt32.ofNat (b + 1), []⟩, List.replicate b ⟨.asleep .wait, []⟩ ++
        ⟨.asleep .wait, []⟩ :: (List.replicate c ⟨.idle, []⟩ ++ [⟨.idle, []⟩]), 0⟩ := by
      simp [St3, List.replicate_succ']
    rw [← e1, ← e2] at h1
    have h3 := h1.trans h2
    rw [show b + 1 + c = b + (c + 1) by omega] at h3
    exact h3

/-- `m` posts in a row while `k` threads are registered. -/
theorem path_posts (k m : Nat) (hk : 1024 ≤ k) (hk' : k < 4194304) (hm : m ≤ 1024) :
    Path (St3 (UInt32.ofNat k) 0 k 0) m (St3 (UInt32.ofNat (k + m * 4194304)) m (k - m) 0) := by
  induction m with
  | zero =>
    have : St3 (UInt32.ofNat (k + 0 * 4194304)) 0 (k - 0) 0 = St3 (UInt32.ofNat k) 0 k 0 := by simp
    rw [this]; exact Path.refl _
  | succ m ih =>
    have h1 := ih (by omega)
    obtain ⟨b, hb⟩ : ∃ b, k - m = b + 1 := ⟨k - m - 1, by omega⟩
    have hlt : k + m * 4194304 < 4294967296 := by omega
    have h2 := path_post (w := UInt32.ofNat (k + m * 4194304)) (A := List.replicate m ⟨.reload .wait, []⟩)
      (B := List.replicate b ⟨.asleep .wait, []⟩) (i := m) (j := k) (by simp) (by simp; omega)
      (by rw [waiters_ge, P_ofNat hlt, W_ofNat hlt]; omega)
      (by rw [waiters_pos, W_ofNat hlt]; omega)
    have hw : UInt32.ofNat (k + m * 4194304) + postOne = UInt32.ofNat (k + (m + 1) * 4194304) := by
      rw [show k + (m + 1) * 4194304 = (k + m * 4194304) + 4194304 by omega, UInt32.ofNat_add (k + m * 4194304)]; rfl
    rw [hw] at h2
    have e1 : St3 (UInt32.ofNat (k + m * 4194304)) m (k - m) 0 = ⟨⟨UInt32.ofNat (k + m * 4194304), []⟩,
        List.replicate m ⟨.reload .wait, []⟩ ++
        ⟨.asleep .wait, []⟩ :: (List.replicate b ⟨.asleep .wait, []⟩ ++ [⟨.idle, []⟩]), 0⟩ := by
      simp [St3, hb, List.replicate_succ]
    have e2 : St3 (UInt32.ofNat (k + (m + 1) * 4194304)) (m + 1) (k - (m + 1)) 0 =
        ⟨⟨UInt32.ofNat (k + (m + 1) * 4194304), []⟩, List.replicate m ⟨.reload .wait, []⟩ ++
        ⟨.reload .wait, []⟩ :: (List.replicate b ⟨.asleep .wait, []⟩ ++ [⟨.idle, []⟩]), 0⟩ := by
      have : k - (m + 1) = b := by omega
      simp [St3, this, List.replicate_succ']
    rw [← e1, ← e2] at h2
    exact h1.trans h2

theorem path_resleep_all (w : UInt32) (hP : posts w = 0) (a b : Nat) : Path (St3 w a b 0) 0 (St3 w 0 (a + b) 0) := by
  induction a generalizing b with
  | zero => rw [Nat.zero_add]; exact Path.refl _
  | succ a ih =>
    have h1 := path_resleep (w := w) (A := List.replicate a ⟨.reload .wait, []⟩)
      (B := List.replicate b ⟨.asleep .wait, []⟩ ++ [⟨.idle, []⟩]) (i := a) (by simp) hP
    have e1 : St3 w (a + 1) b 0 = ⟨⟨w, []⟩, List.replicate a ⟨.reload .wait, []⟩ ++
        ⟨.reload .wait, []⟩ :: (List.replicate b ⟨.asleep .wait, []⟩ ++ [⟨.idle, []⟩]), 0⟩ := by
      simp [St3, List.replicate_succ']
    have e2 : St3 w a (b + 1) 0 = ⟨⟨w, []⟩, List.replicate a ⟨.reload .wait, []⟩ ++
        ⟨.asleep .wait, []⟩ :: (List.replicate b ⟨.asleep .wait, []⟩ ++ [⟨.idle, []⟩]), 0⟩ := by
      simp [St3, List.replicate_succ]
    rw [← e1, ← e2] at h1
    have h2 := ih (b + 1)
    rw [show a + (b + 1) = a + 1 + b by omega] at h2
    exact h1.trans h2

/-- With at least 1024 blocked threads, 1024 completed posts release nobody. -/
theorem path_overflow (k : Nat) (hk : 1024 ≤ k) (hk' : k < 4194304) :
    Path (init (k + 1)) 0 (St3 (UInt32.ofNat k) 0 k 0) ∧
    Path (St3 (UInt32.ofNat k) 0 k 0) 1024 (St3 (UInt32.ofNat k) 0 k 0) := by
  constructor
  · have := path_sleep_all k 0 (by omega)
    rw [Nat.zero_add] at this
    rw [init_eq]
    exact this
  · have h1 := path_posts k 1024 hk hk' (Nat.le_refl _)
    have hw : UInt32.ofNat (k + 1024 * 4194304) = UInt32.ofNat k := by
      apply UInt32.toNat_inj.mp
      simp only [UInt32.toNat_ofNat']
      omega
    rw [hw] at h1
    have h2 := path_resleep_all (UInt32.ofNat k) (by rw [posts_zero, P_ofNat (by omega)]; omega) 1024 (k - 1024)
    rw [show 1024 + (k - 1024) = k by omega] at h2
    exact h1.trans h2

end Verif.AutoFutex
