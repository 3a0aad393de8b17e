import Verif.Proof.MonitorSim
import Verif.Proof.AtomicObject
import Verif.Proof.MonitorObs
import Verif.Proof.AutoEventSem
import Verif.Proof.AutoEventFutex
import Verif.Proof.ManualEventFutex
import Verif.Spec.Returned

/-! Successful waits and completed signals. -/

namespace Verif.Atomic

variable {D S : Type}

def Status.isDone : Status S → Bool
  | .done _ _ => true
  | _ => false

def Status.doneFail : Status S → Bool
  | .done (.acq _) false => true
  | _ => false

theorem isDone_split (ths : List (Status S)) :
    ths.countP Status.isDone = ths.countP Status.doneSig + ths.countP Status.doneAcq + ths.countP Status.doneFail := by
  induction ths with
  | nil => rfl
  | cons x xs ih =>
    simp only [List.countP_cons]
    rcases x with _ | ⟨op, e⟩ | ⟨op | op, b⟩
    · simp only [Status.isDone, Status.doneSig, Status.doneAcq, Status.doneFail]; simp; omega
    · simp only [Status.isDone, Status.doneSig, Status.doneAcq, Status.doneFail]; simp; omega
    · cases b <;> simp only [Status.isDone, Status.doneSig, Status.doneAcq, Status.doneFail] <;> simp <;> omega
    · simp only [Status.isDone, Status.doneSig, Status.doneAcq, Status.doneFail]; simp; omega

/-- What may be taken never grows by more than one, and every success takes one. -/
structure Avail (O : Obj D S) (avail : D → Nat) : Prop where
  put : ∀ x d, avail (O.put x d) ≤ avail d + 1
  take : ∀ d, O.ready d = true → avail (O.take d) + 1 ≤ avail d

structure KInv (avail : D → Nat) (i : Nat) (tr : List (Ev S)) (a : St D S) : Prop where
  made : successes tr + a.ths.countP Status.doneAcq + avail a.d ≤ signalsDone tr + i + a.ths.countP Status.doneSig
  late : successes tr + a.ths.countP Status.doneAcq ≤ signalsDone tr + i
  calls : signalsCalled tr = signalsDone tr + signalsThrown tr + a.ths.countP Status.doneSig + a.ths.countP Status.pendingSig

theorem kinv_step {O : Obj D S} {avail : D → Nat} (A : Avail O avail) {i : Nat} {tr es : List (Ev S)} {a a' : St D S}
    (I : KInv avail i tr a) (h1 : a'.ths.countP Status.isDone ≤ 1) (h : StepCase O a es a') : KInv avail i (tr ++ es) a' := by
  obtain ⟨I1, I2, I3⟩ := I
  have s1 : successes (tr ++ es) = successes tr + successes es := List.countP_append
  have s2 : signalsCalled (tr ++ es) = signalsCalled tr + signalsCalled es := List.countP_append
  have s3 : signalsDone (tr ++ es) = signalsDone tr + signalsDone es := List.countP_append
  have s4 : signalsThrown (tr ++ es) = signalsThrown tr + signalsThrown es := List.countP_append
  rw [isDone_split] at h1
  have key : ∀ (t : Nat) (st st' : Status S) (es' : List (Ev S)) (d' : D), a.ths[t]? = some st → es = es' → a' = ⟨d', a.ths.set t st'⟩ →
      (successes es + b2n st'.doneAcq + avail d' + b2n st.doneSig ≤ signalsDone es + b2n st'.doneSig + b2n st.doneAcq + avail a.d) →
      ((a.ths.set t st').countP Status.doneSig = 0 ∨ successes es + b2n st'.doneAcq ≤ signalsDone es + b2n st.doneAcq) →
      (signalsCalled es + b2n st.doneSig + b2n st.pendingSig =
        signalsDone es + signalsThrown es + b2n st'.doneSig + b2n st'.pendingSig) → KInv avail i (tr ++ es) a' := by
    intro t st st' es' d' hst _ ha' g1 g2 g3
    have c1 := countP_set (p := Status.doneAcq) (b := st') hst
    have c2 := countP_set (p := Status.pendingSig) (b := st') hst
    have c3 := countP_set (p := Status.doneSig) (b := st') hst
    subst ha'
    refine ⟨?_, ?_, ?_⟩
    · simp only; omega
    · simp only; rcases g2 with g2 | g2 <;> omega
    · simp only; omega
  cases h with
  | @call t op h =>
    cases op with
    | acq k =>
      refine key t _ _ _ _ h rfl rfl ?_ (.inr ?_) ?_
      · change 0 + 0 + _ + 0 ≤ 0 + 0 + 0 + _; omega
      · change 0 + 0 ≤ 0 + 0; omega
      · rfl
    | sig x =>
      refine key t _ _ _ _ h rfl rfl ?_ (.inr ?_) ?_
      · change 0 + 0 + _ + 0 ≤ 0 + 0 + 0 + _; omega
      · change 0 + 0 ≤ 0 + 0; omega
      · rfl
  | @expire t e h =>
    refine key t _ _ _ _ h rfl rfl ?_ (.inr ?_) ?_
    · change 0 + 0 + _ + 0 ≤ 0 + 0 + 0 + _; omega
    · change 0 + 0 ≤ 0 + 0; omega
    · rfl
  | @sig t x e h =>
    refine key t _ _ _ _ h rfl rfl ?_ (.inr ?_) ?_
    · change 0 + 0 + _ + 0 ≤ 0 + 1 + 0 + _
      have := A.put x a.d
      omega
    · change 0 + 0 ≤ 0 + 0; omega
    · rfl
  | @take t k e h hr =>
    refine key t _ _ _ _ h rfl rfl ?_ (.inl ?_) ?_
    · change 0 + 1 + _ + 0 ≤ 0 + 0 + 0 + _
      have := A.take a.d hr
      omega
    · have := countP_pos_of_get (p := Status.doneAcq) (get_set_self (b := .done (.acq k) true) h) rfl
      simp only at h1
      omega
    · rfl
  | @fail t k e h hr hm =>
    refine key t _ _ _ _ h rfl rfl ?_ (.inr ?_) ?_
    · change 0 + 0 + _ + 0 ≤ 0 + 0 + 0 + _; omega
    · change 0 + 0 ≤ 0 + 0; omega
    · rfl
  | @ret t op r h =>
    cases op with
    | acq k =>
      cases r
      · refine key t _ _ _ _ h rfl rfl ?_ (.inr ?_) ?_
        · change 0 + 0 + _ + 0 ≤ 0 + 0 + 0 + _; omega
        · change 0 + 0 ≤ 0 + 0; omega
        · rfl
      · refine key t _ _ _ _ h rfl rfl ?_ (.inr ?_) ?_
        · change 1 + 0 + _ + 0 ≤ 0 + 0 + 1 + _; omega
        · change 1 + 0 ≤ 0 + 1; omega
        · rfl
    | sig x =>
      refine key t _ _ _ _ h rfl rfl ?_ (.inr ?_) ?_
      · change 0 + 0 + _ + 1 ≤ 1 + 0 + 0 + _; omega
      · change 0 + 0 ≤ 1 + 0; omega
      · rfl
  | @throw t op e h =>
    cases op with
    | acq k =>
      refine key t _ _ _ _ h rfl rfl ?_ (.inr ?_) ?_
      · change 0 + 0 + _ + 0 ≤ 0 + 0 + 0 + _; omega
      · change 0 + 0 ≤ 0 + 0; omega
      · rfl
    | sig x =>
      refine key t _ _ _ _ h rfl rfl ?_ (.inr ?_) ?_
      · change 0 + 0 + _ + 0 ≤ 0 + 0 + 0 + _; omega
      · change 0 + 0 ≤ 0 + 0; omega
      · rfl

theorem kinv_init {O : Obj D S} {avail : D → Nat} (n : Nat) : KInv avail (avail O.init) [] (init O n) := by
  refine ⟨?_, ?_, ?_⟩ <;> simp only [init]
  · rw [countP_replicate_false rfl]
    change 0 + 0 + _ ≤ 0 + _ + _; omega
  · rw [countP_replicate_false rfl]
    change 0 + 0 ≤ _; omega
  · rw [countP_replicate_false rfl, countP_replicate_false rfl]; rfl

/-! ## The flag that stays set -/

def Status.doneSet : Status SetReset → Bool
  | .done (.sig .set) _ => true
  | _ => false

def Status.pendingSet : Status SetReset → Bool
  | .pending (.sig .set) _ => true
  | _ => false

structure FInv (tr : List (Ev SetReset)) (a : St Bool SetReset) : Prop where
  flag : a.d = true → 0 < setsDone tr + a.ths.countP Status.doneSet
  late : 0 < successes tr + a.ths.countP Status.doneAcq → 0 < setsDone tr
  calls : setsDone tr + a.ths.countP Status.doneSet + a.ths.countP Status.pendingSet ≤ setsCalled tr

theorem doneSet_le (ths : List (Status SetReset)) : ths.countP Status.doneSet ≤ ths.countP Status.doneSig := by
  apply countP_le
  intro st h
  rcases st with _ | ⟨op, e⟩ | ⟨op | op, b⟩ <;> first | rfl | cases h

theorem finv_step {tr es : List (Ev SetReset)} {a a' : St Bool SetReset}
    (I : FInv tr a) (h1 : a'.ths.countP Status.isDone ≤ 1) (h : StepCase flagObj a es a') : FInv (tr ++ es) a' := by
  obtain ⟨I1, I2, I3⟩ := I
  have s1 : successes (tr ++ es) = successes tr + successes es := List.countP_append
  have s2 : setsCalled (tr ++ es) = setsCalled tr + setsCalled es := List.countP_append
  have s3 : setsDone (tr ++ es) = setsDone tr + setsDone es := List.countP_append
  rw [isDone_split] at h1
  have key : ∀ (t : Nat) (st st' : Status SetReset) (d' : Bool), a.ths[t]? = some st → a' = ⟨d', a.ths.set t st'⟩ →
      (d' = true → a.d = true ∧ b2n st.doneSet ≤ setsDone es + b2n st'.doneSet ∨ st'.doneSet = true) →
      (successes es + b2n st'.doneAcq ≤ b2n st.doneAcq ∨ (a.d = true ∧ (a.ths.set t st').countP Status.doneSig = 0 ∧
        st.doneSet = false)) →
      (setsDone es + b2n st'.doneSet + b2n st'.pendingSet ≤ setsCalled es + b2n st.doneSet + b2n st.pendingSet) →
      FInv (tr ++ es) a' := by
    intro t st st' d' hst ha' g1 g2 g3
    have c2 := countP_set (p := Status.pendingSet) (b := st') hst
    have c1 := countP_set (p := Status.doneAcq) (b := st') hst
    have c3 := countP_set (p := Status.doneSet) (b := st') hst
    subst ha'
    refine ⟨?_, ?_, ?_⟩
    · intro hd
      simp only
      rcases g1 hd with ⟨g, g'⟩ | g
      · have := I1 g; omega
      · rw [g] at c3
        have := b2n_le_countP (p := Status.doneSet) hst
        simp only [b2n_true] at c3
        omega
    · simp only
      intro hp
      rcases g2 with g2 | ⟨g2, g3, g4⟩
      · have := I2 (by omega); omega
      · have := I1 g2
        have := doneSet_le (a.ths.set t st')
        rw [g4] at c3
        simp only [b2n_false] at c3
        omega
    · simp only
      omega
  cases h with
  | @call t op h =>
    refine key t _ _ _ h rfl (fun hd => .inl ⟨hd, ?_⟩) (.inl ?_) ?_
    · change 0 ≤ _; omega
    · change 0 + 0 ≤ 0; omega
    · rcases op with k | x
      · exact Nat.le_refl _
      · cases x <;> exact Nat.le_refl _
  | @expire t e h =>
    refine key t _ _ _ h rfl (fun hd => .inl ⟨hd, ?_⟩) (.inl ?_) (Nat.le_refl _)
    · change 0 ≤ _; omega
    · change 0 + 0 ≤ 0; omega
  | @sig t x e h =>
    cases x with
    | set =>
      refine key t _ _ _ h rfl (fun _ => .inr rfl) (.inl ?_) (Nat.le_refl _)
      change 0 + 0 ≤ 0; omega
    | reset =>
      refine key t _ _ _ h rfl (fun hd => by cases hd) (.inl ?_) (Nat.le_refl _)
      change 0 + 0 ≤ 0; omega
  | @take t k e h hr =>
    refine key t _ _ _ h rfl (fun hd => .inl ⟨hr, ?_⟩) (.inr ⟨hr, ?_, rfl⟩) (Nat.le_refl _)
    · change 0 ≤ _; omega
    · have := countP_pos_of_get (p := Status.doneAcq) (get_set_self (b := .done (.acq k) true) h) rfl
      simp only at h1
      omega
  | @fail t k e h hr hm =>
    refine key t _ _ _ h rfl (fun hd => .inl ⟨hd, ?_⟩) (.inl ?_) (Nat.le_refl _)
    · change 0 ≤ _; omega
    · change 0 + 0 ≤ 0; omega
  | @ret t op r h =>
    cases op with
    | acq k =>
      refine key t _ _ _ h rfl (fun hd => .inl ⟨hd, ?_⟩) (.inl ?_) (Nat.le_refl _)
      · change 0 ≤ _; omega
      · cases r
        · change 0 + 0 ≤ 0; omega
        · change 1 + 0 ≤ 1; omega
    | sig x =>
      refine key t _ _ _ h rfl (fun hd => .inl ⟨hd, ?_⟩) (.inl ?_) ?_
      · cases x
        · change 1 ≤ 1 + 0; omega
        · change 0 ≤ _; omega
      · change 0 + 0 ≤ 0; omega
      · cases x <;> exact Nat.le_refl _
  | @throw t op e h =>
    refine key t _ _ _ h rfl (fun hd => .inl ⟨hd, ?_⟩) (.inl ?_) ?_
    · change 0 ≤ _; omega
    · change 0 + 0 ≤ 0; omega
    · change 0 + 0 + 0 ≤ _; omega

theorem finv_init (n : Nat) : FInv [] (init flagObj n) := by
  refine ⟨(fun h => by cases h), ?_, ?_⟩ <;> simp only [init]
  · rw [countP_replicate_false rfl]
    intro h
    change 0 < 0 + 0 at h
    omega
  · rw [countP_replicate_false rfl, countP_replicate_false rfl]
    exact Nat.le_refl _

end Verif.Atomic

namespace Verif.Monitor

open Verif.Atomic (Kind Op Ev Obj Status KInv Avail FInv successes signalsDone signalsCalled SetReset One signalling
  setsCalled setsDone prog)

variable {D S : Type}

/-- At most one thread is between the instant its call took effect and its return. -/
theorem one_done {M : Mon D S} {s : St D S} (I : Inv M s) : s.abs.ths.countP Status.isDone ≤ 1 := by
  apply Classical.byContradiction
  intro hn
  have h2 : 2 ≤ s.ths.countP (fun pc => pc.abs.isDone) := by
    simp only [St.abs, List.countP_map] at hn
    have : (Status.isDone ∘ PC.abs : PC S → Bool) = (fun pc => pc.abs.isDone) := rfl
    rw [this] at hn
    omega
  obtain ⟨i, pc, hi, hp⟩ := exists_of_countP_pos (p := fun pc : PC S => pc.abs.isDone) (l := s.ths) (by omega)
  have hh : ∀ pc : PC S, pc.abs.isDone = true → pc.holding = true := by
    intro pc h; cases pc <;> first | rfl | cases h
  have c := countP_set (p := fun pc : PC S => pc.abs.isDone) (b := .idle) hi
  simp only [hp, b2n_true] at c
  change _ + 1 = _ + 0 at c
  obtain ⟨j, pc', hj, hp'⟩ := exists_of_countP_pos (p := fun pc : PC S => pc.abs.isDone) (l := s.ths.set i .idle) (by omega)
  rcases get_set_cases hj with ⟨_, rfl⟩ | ⟨hne, hj⟩
  · cases hp'
  · have := I.alone hi (hh pc hp) hj (Ne.symm hne)
    rw [hh pc' hp'] at this
    cases this

/-- An invariant of the atomic object that uses this. -/
theorem excl_exec {M : Mon D S} {n : Nat} {P : List (Ev S) → Atomic.St D S → Prop}
    (h0 : P [] (Atomic.init M.obj n))
    (hs : ∀ tr es (a a' : Atomic.St D S), P tr a → a'.ths.countP Status.isDone ≤ 1 → Atomic.StepCase M.obj a es a' → P (tr ++ es) a')
    {tr : List (Ev S)} {s : St D S} (h : Exec (step M) (init M n) tr s) : P tr s.abs := by
  induction h with
  | init =>
    have : (init M n).abs = Atomic.init M.obj n := by simp [St.abs, init, Atomic.init, Mon.obj, PC.abs]
    rw [this]
    exact h0
  | snoc hex hst ih =>
    cases sim_step (inv_exec hex) hst with
    | stutter h1 h2 => rw [h1, h2, List.append_nil]; exact ih
    | one l hl => exact hs _ _ _ _ ih (one_done (inv_exec (hex.snoc hst))) (Atomic.step_cases hl)

theorem kinv_exec {M : Mon D S} {avail : D → Nat} (A : Avail M.obj avail) {n : Nat} {tr : List (Ev S)} {s : St D S}
    (h : Exec (step M) (init M n) tr s) : KInv avail (avail M.init) tr s.abs :=
  excl_exec (P := KInv avail (avail M.init)) (Atomic.kinv_init (O := M.obj) n)
    (fun _ _ _ _ I h1 hc => Atomic.kinv_step A I h1 hc) h

theorem manual_obj (c : Kind → Bool) : (manualEvent c).obj = Atomic.flagObj := by
  simp only [manualEvent, Atomic.flagObj, Mon.obj, Obj.mk.injEq, true_and]
  refine ⟨rfl, rfl, ?_⟩
  funext x d
  cases x <;> rfl

theorem finv_exec {c : Kind → Bool} {n : Nat} {tr : List (Ev SetReset)} {s : St Bool SetReset}
    (h : Exec (step (manualEvent c)) (init (manualEvent c) n) tr s) : FInv tr s.abs :=
  excl_exec (M := manualEvent c) (P := FInv) (Atomic.finv_init n)
    (fun _ _ _ _ I h1 hc => Atomic.finv_step I h1 (manual_obj c ▸ hc)) h

theorem avail_auto (c : Kind → Bool) : Avail (autoEvent c).obj (fun d => if d then 1 else 0) where
  put := by intro x d; cases d <;> simp [Mon.obj, autoEvent]
  take := by intro d h; cases d <;> simp [Mon.obj, autoEvent] at h ⊢

theorem avail_lock (c : Kind → Bool) : Avail (timedMutex c).obj (fun d => if d then 0 else 1) where
  put := by intro x d; cases d <;> simp [Mon.obj, timedMutex]
  take := by intro d h; cases d <;> simp [Mon.obj, timedMutex] at h ⊢

theorem avail_sem (c : Kind → Bool) (i : UInt32) : Avail (semaphore c i).obj UInt32.toNat where
  put := by
    intro x d
    change (d + 1).toNat ≤ d.toNat + 1
    rw [UInt32.toNat_add]
    exact Nat.mod_le _ _
  take := by
    intro d h
    change (d - 1).toNat + 1 ≤ d.toNat
    have h' : d ≠ 0 := by simpa [Mon.obj, semaphore] using h
    have h0 : d.toNat ≠ 0 := fun h0 => h' (UInt32.toNat_inj.mp h0)
    have : (d - 1).toNat = d.toNat - 1 := by
      rw [UInt32.toNat_sub_of_le]
      · rfl
      · rw [UInt32.le_iff_toNat_le]; change 1 ≤ _; omega
    omega

theorem length_exec {M : Mon D S} {n : Nat} {tr : List (Ev S)} {s : St D S} (h : Exec (step M) (init M n) tr s) :
    s.ths.length = n := by
  refine h.invariant' (fun s => s.ths.length = n) (by simp [init]) ?_
  intro s l s' es hl hs
  obtain ⟨t, a⟩ := l
  unfold step at hs
  simp only at hs
  repeat' split at hs
  all_goals first
    | contradiction
    | (cases hs; simpa using hl)

/-- With all signals consumed nobody is inside a signalling operation. -/
theorem none_signalling {M : Mon D S} {avail : D → Nat} (A : Avail M.obj avail) {n : Nat} {tr : List (Ev S)} {s : St D S}
    (h : Exec (step M) (init M n) tr s) (hall : signalsCalled tr + avail M.init ≤ successes tr) {t : Nat} (ht : t < n) :
    ¬ signalling tr t := by
  rintro ⟨x, e, hp⟩
  have K := kinv_exec A h
  have k1 := K.late
  have k2 := K.calls
  have hl : s.ths.length = n := length_exec h
  have hg : s.ths[t]? = some (s.ths[t]'(by omega)) := List.getElem?_eq_getElem (by omega)
  have ha := abs_get hg
  have hP := (oinv_exec h).prog t _ ha
  rw [hp] at hP
  generalize hst : (s.ths[t]'(by omega)).abs = st at ha hP
  rcases st with _ | ⟨op, e'⟩ | ⟨op, b⟩
  · cases hP
  · cases hP
    have := countP_pos_of_get (p := Status.pendingSig) ha rfl
    omega
  · obtain ⟨_, hP⟩ := hP
    cases hP
    have := countP_pos_of_get (p := Status.doneSig) ha rfl
    omega

theorem none_setting {c : Kind → Bool} {n : Nat} {tr : List (Ev SetReset)} {s : St Bool SetReset}
    (h : Exec (step (manualEvent c)) (init (manualEvent c) n) tr s) (hone : setsCalled tr ≤ 1) (hsucc : 0 < successes tr)
    {t : Nat} (ht : t < n) (e : Bool) : prog tr t ≠ some (.sig .set, e) := by
  intro hp
  have K := finv_exec h
  have k1 := K.late (by omega)
  have k2 := K.calls
  have hl : s.ths.length = n := length_exec h
  have hg : s.ths[t]? = some (s.ths[t]'(by omega)) := List.getElem?_eq_getElem (by omega)
  have ha := abs_get hg
  have hP := (oinv_exec h).prog t _ ha
  rw [hp] at hP
  generalize hst : (s.ths[t]'(by omega)).abs = st at ha hP
  rcases st with _ | ⟨op, e'⟩ | ⟨op, b⟩
  · cases hP
  · cases hP
    have := countP_pos_of_get (p := Status.pendingSet) ha rfl
    omega
  · obtain ⟨_, hP⟩ := hP
    cases hP
    have := countP_pos_of_get (p := Status.doneSet) ha rfl
    omega

end Verif.Monitor

namespace Verif.AutoSem

open Verif.Atomic (Kind Op Ev One successes signalsCalled signalsDone)

/-- `post` has made its last access. -/
def PC.leavesPost : PC → Bool
  | .leave (.sig _) _ => true
  | _ => false

/-- The calls of `post`: returned, leaving or on their way. -/
def Calls (tr : List (Ev One)) (s : St) : Prop :=
  signalsCalled tr = signalsDone tr + s.ths.countP PC.leavesPost + s.ths.countP PC.posts

theorem calls_move {tr es : List (Ev One)} {s s' : St} {t : Nat} {pc pc' : PC} (C : Calls tr s) (ht : s.ths[t]? = some pc)
    (hs : s'.ths = s.ths.set t pc')
    (h : signalsCalled es + b2n pc.leavesPost + b2n pc.posts = signalsDone es + b2n pc'.leavesPost + b2n pc'.posts) :
    Calls (tr ++ es) s' := by
  have c1 := countP_set (p := PC.leavesPost) (b := pc') ht
  have c2 := countP_set (p := PC.posts) (b := pc') ht
  have s1 : signalsCalled (tr ++ es) = signalsCalled tr + signalsCalled es := List.countP_append
  have s2 : signalsDone (tr ++ es) = signalsDone tr + signalsDone es := List.countP_append
  simp only [Calls, hs] at C ⊢
  omega

theorem calls_step {tr es : List (Ev One)} {s s' : St} {l : Nat × Act} (C : Calls tr s) (h : step s l = some (s', es)) :
    Calls (tr ++ es) s' := by
  obtain ⟨t, a⟩ := l
  have hseen : b2n (seen s.state).leavesPost + b2n (seen s.state).posts = 1 := by unfold seen; split <;> rfl
  unfold step at h
  simp only at h
  split at h
  · cases h
  next pc ht =>
  have hz : signalsDone ([] : List (Ev One)) = 0 := rfl
  have hz' : signalsCalled ([] : List (Ev One)) = 0 := rfl
  repeat' split at h
  all_goals first
    | contradiction
    | (cases h; refine calls_move C ht rfl ?_; rfl; done)
    | (cases h; refine calls_move C ht rfl ?_; rw [hz, hz']; change 0 + 0 + 1 = _; omega; done)
    | (next op res => cases h; refine calls_move C ht rfl ?_; cases op <;> rfl)

theorem calls_exec {n : Nat} {tr : List (Ev One)} {s : St} (h : Exec step (init n) tr s) : Calls tr s := by
  refine h.invariant Calls ?_ (fun _ _ _ _ _ C hs => calls_step C hs)
  simp only [Calls, init]
  rw [countP_replicate_false rfl, countP_replicate_false rfl]
  rfl

end Verif.AutoSem

namespace Verif.AutoFutex

/-- About to signal the futex. -/
def Th.signals (th : Th) : Bool := decide (th.pc = .postSignal)

/-- Posts that took effect have returned or are about to signal the futex. -/
def Made (tr : List Ev) (s : St) : Prop := postsMade tr ≤ postsDone tr + s.ths.countP Th.signals

theorem made_move {tr es : List Ev} {s s' : St} {t : Nat} {th th' : Th} (C : Made tr s) (ht : s.ths[t]? = some th)
    (hs : s'.ths = s.ths.set t th') (h : postsMade es + b2n th.signals ≤ postsDone es + b2n th'.signals) :
    Made (tr ++ es) s' := by
  have c1 := countP_set (p := Th.signals) (b := th') ht
  have s1 : postsMade (tr ++ es) = postsMade tr + postsMade es := List.countP_append
  have s2 : postsDone (tr ++ es) = postsDone tr + postsDone es := List.countP_append
  simp only [Made, hs] at C ⊢
  omega

theorem postsMade_ret (t : Nat) (k : Kind) (b : Bool) : postsMade [retEv t k b] = 0 := by cases k <;> rfl

theorem signals_pc {th : Th} {pc : PC} (h : th.pc = pc) (hp : pc ≠ .postSignal := by nofun) : th.signals = false := by
  simp only [Th.signals, h, decide_eq_false_iff_not]; exact hp

theorem made_step {tr es : List Ev} {s s' : St} {l : Nat × Act} (C : Made tr s) (h : step s l = some (s', es)) :
    Made (tr ++ es) s' := by
  obtain ⟨t, a⟩ := l
  unfold step at h
  simp only at h
  split at h
  · cases h
  next th hth =>
  have easy : ∀ {th' : Th} {w : Loc UInt32} {f : Nat} {es' : List Ev}, th.pc ≠ .postSignal → postsMade es' = 0 →
      Made (tr ++ es') ⟨w, s.ths.set t th', f⟩ := by
    intro th' w f es' hp he
    refine made_move C hth rfl ?_
    rw [he, signals_pc rfl hp]
    simp only [b2n_false]; omega
  have hz : postsMade ([] : List Ev) = 0 := rfl
  split at h
  all_goals repeat' split at h
  all_goals first
    | contradiction
    | skip
  all_goals simp only [Option.some.injEq, Prod.mk.injEq] at h
  all_goals obtain ⟨rfl, rfl⟩ := h
  all_goals first
    | (with_reducible refine easy ?_ ?_
       · intro hc; simp_all; done
       · first | rfl | exact postsMade_ret _ _ _)
    | skip
  · next hpc _ _ _ =>
    refine made_move C hth rfl ?_
    rw [signals_pc hpc]
    change 1 + 0 ≤ 0 + 1; omega
  · next hpc _ _ _ =>
    refine made_move C hth rfl ?_
    rw [signals_pc hpc]
    change 1 + 0 ≤ 1 + 0; omega
  · next j hpc _ k v hj =>
    have hne : t ≠ j := by
      rintro rfl
      rw [hj] at hth
      cases hth
      cases hpc
    have h1 : Made (tr ++ [.postDone t]) { s with ths := s.ths.set t { th with pc := .idle } } := by
      refine made_move C hth rfl ?_
      have := b2n_le_one th.signals
      change 0 + _ ≤ 1 + 0; omega
    have h2 := made_move (es := []) (th' := ⟨.reload k, v⟩) (t := j)
      (s' := { s with ths := (s.ths.set t { th with pc := .idle }).set j ⟨.reload k, v⟩ }) h1
      (by simp only [get_set_ne hne]; exact hj) rfl (by change 0 + 0 ≤ 0 + 0; omega)
    rw [List.append_nil] at h2
    exact h2
  · next hpc _ =>
    refine made_move C hth rfl ?_
    have := b2n_le_one th.signals
    change 0 + _ ≤ 1 + 0; omega

theorem made_exec {n : Nat} {tr : List Ev} {s : St} (h : Exec step (init n) tr s) : Made tr s :=
  h.invariant Made (Nat.zero_le _) (fun _ _ _ _ _ C hs => made_step C hs)

end Verif.AutoFutex

namespace Verif.ManualFutex

def isSetOp : Ev → Bool
  | .wasSet _ => true
  | _ => false

def isSetDone : Ev → Bool
  | .setDone _ => true
  | _ => false

/-- `set` operations that took effect have returned or are about to wake everybody. -/
def Made (tr : List Ev) (s : St) : Prop := tr.countP isSetOp ≤ tr.countP isSetDone + s.ths.countP Th.waking

theorem made_move {tr es : List Ev} {s s' : St} {t : Nat} {th th' : Th} (C : Made tr s) (ht : s.ths[t]? = some th)
    (hs : s'.ths.countP Th.waking = (s.ths.set t th').countP Th.waking)
    (h : es.countP isSetOp + b2n th.waking ≤ es.countP isSetDone + b2n th'.waking) :
    Made (tr ++ es) s' := by
  have c1 := countP_set (p := Th.waking) (b := th') ht
  simp only [Made, hs, List.countP_append] at C ⊢
  omega

theorem setOp_ret (t : Nat) (k : Kind) (b : Bool) : [retEv t k b].countP isSetOp = 0 := by cases k <;> rfl

theorem made_step {tr es : List Ev} {s s' : St} {l : Nat × Act} (C : Made tr s) (h : step s l = some (s', es)) :
    Made (tr ++ es) s' := by
  obtain ⟨t, a⟩ := l
  unfold step at h
  simp only at h
  split at h
  · cases h
  next th hth =>
  have easy : ∀ {th' : Th} {w : Loc UInt32} {f n : Nat} {es' : List Ev}, th.waking = false → es'.countP isSetOp = 0 →
      Made (tr ++ es') ⟨w, s.ths.set t th', f, n⟩ := by
    intro th' w f n es' hp he
    refine made_move C hth rfl ?_
    rw [he, hp]
    simp only [b2n_false]; omega
  split at h
  all_goals repeat' split at h
  all_goals first
    | contradiction
    | skip
  all_goals simp only [Option.some.injEq, Prod.mk.injEq] at h
  all_goals obtain ⟨rfl, rfl⟩ := h
  all_goals first
    | (with_reducible refine easy ?_ ?_
       · simp_all [Th.waking, PC.waking]; done
       · first | rfl | exact setOp_ret _ _ _)
    | skip
  · next hpc _ =>
    refine made_move C hth rfl ?_
    have : th.waking = false := by simp [Th.waking, PC.waking, hpc]
    rw [this]
    change 1 + 0 ≤ 0 + 1; omega
  · next hpc _ =>
    refine made_move C hth rfl ?_
    have : th.waking = false := by simp [Th.waking, PC.waking, hpc]
    rw [this]
    change 1 + 0 ≤ 1 + 0; omega
  · next hpc =>
    refine made_move C hth (th' := { th with pc := .idle }) ?_ ?_
    · simp only [List.countP_map]
      congr 1
      funext x
      simp only [Function.comp, Th.waking, Th.wakeUp]
      split <;> simp_all [PC.waking]
    · have := b2n_le_one th.waking
      change 0 + _ ≤ 1 + 0; omega

theorem made_exec {n : Nat} {tr : List Ev} {s : St} (h : Exec step (init n) tr s) : Made tr s :=
  h.invariant Made (Nat.zero_le _) (fun _ _ _ _ _ C hs => made_step C hs)

theorem set_of_during {t : Nat} (tr : List Ev) (h : setDuringCall t tr = true) : 0 < tr.countP isSetOp := by
  have key : ∀ (tr : List Ev) (p : Bool × Bool), tr.countP isSetOp = 0 → p = (false, false) → tr.foldl (duringUpd t) p = (false, false) := by
    intro tr
    induction tr with
    | nil => intro p _ hp; exact hp
    | cons e tr ih =>
      intro p h0 hp
      simp only [List.countP_cons] at h0
      refine ih _ (by omega) ?_
      subst hp
      cases e <;> simp_all [duringUpd, isSetOp]
  apply Nat.pos_of_ne_zero
  intro h0
  have := key tr (false, false) h0 rfl
  simp only [setDuringCall, this] at h
  cases h

end Verif.ManualFutex
