import Verif.Base.Count
import Verif.Spec.CvAny

/-! Invariants of condition_variable_any. -/

namespace Verif.CvAny

/-- Holds the internal mutex. -/
def PC.holdsInt : PC → Bool
  | .wRelease _ | .wBlock _ | .wClock | .wExit _ | .wUnwind | .nSignal _ | .nUnlock => true
  | _ => false

/-- Inside wait before the user's lock is released. -/
def PC.must : PC → Bool
  | .wLock _ | .wRelease _ | .wUnwind => true
  | _ => false

/-- Inside wait after the user's lock was released. -/
def PC.rel : PC → Bool
  | .wBlock _ | .blocked _ | .wake _ _ | .wClock | .wExit _ | .wRelock _ => true
  | _ => false

def PC.isDead : PC → Bool
  | .dead => true
  | _ => false

/-- What the invariants see of a program counter. -/
def PC.cls (p : PC) : Bool × Bool × Bool × Bool := (p.holdsInt, p.must, p.rel, p.isDead)

theorem cls_wakeUp (p : PC) : p.wakeUp.cls = p.cls := by cases p <;> rfl

def ownStep (o : Option Nat) (e : Ev) : Option Nat := match e with
    | .locked t | .relocked t => some t
    | .unlocked _ | .released _ => none
    | _ => o

def relStep (u : Nat) (b : Bool) (e : Ev) : Bool := match e with
    | .released t => if t = u then true else b
    | .relocked t | .ret t _ | .terminated t => if t = u then false else b
    | _ => b

theorem userOwner_append (tr es : List Ev) : userOwner (tr ++ es) = es.foldl ownStep (userOwner tr) :=
  List.foldl_append ..
theorem hasReleased_append (u : Nat) (tr es : List Ev) :
    hasReleased u (tr ++ es) = es.foldl (relStep u) (hasReleased u tr) := List.foldl_append ..

/-- Released according to the program counter. -/
def relAt (ths : List PC) (u : Nat) : Bool := match ths[u]? with | some p => p.rel | none => false

structure Inv (tr : List Ev) (s : St) : Prop where
  int : ∀ (t : Nat) (p : PC), s.ths[t]? = some p → (p.holdsInt = true ↔ s.int = some t)
  intLt : ∀ t, s.int = some t → ∃ p, s.ths[t]? = some p
  must : ∀ (t : Nat) (p : PC), s.ths[t]? = some p → p.must = true → s.user = some t
  not : ∀ (t : Nat) (p : PC), s.ths[t]? = some p → (p.rel = true ∨ p.isDead = true) → s.user ≠ some t
  userLt : ∀ t, s.user = some t → ∃ p, s.ths[t]? = some p
  own : userOwner tr = s.user
  rel : ∀ u, hasReleased u tr = relAt s.ths u

theorem inv_init (n : Nat) : Inv [] (init n) where
  int := by intro t p h; rw [get_replicate h]; simp [PC.holdsInt, init]
  intLt := by intro t h; cases h
  must := by intro t p h; rw [get_replicate h]; simp [PC.must]
  not := by intro t p h; rw [get_replicate h]; simp [init]
  userLt := by intro t h; cases h
  own := rfl
  rel := by
    intro u
    show false = relAt (List.replicate n .idle) u
    unfold relAt
    split
    · next h => rw [get_replicate h]; rfl
    · rfl

theorem inv_move {tr es : List Ev} {s s' : St} {t : Nat} {pc pc' : PC} (I : Inv tr s) (ht : s.ths[t]? = some pc)
    (ht' : s'.ths[t]? = some pc')
    (ho : ∀ u, u ≠ t → s'.ths[u]?.map PC.cls = s.ths[u]?.map PC.cls)
    (hint : (s'.int = s.int ∧ pc'.holdsInt = pc.holdsInt) ∨ (s.int = none ∧ s'.int = some t ∧ pc'.holdsInt = true) ∨
      (pc.holdsInt = true ∧ s'.int = none ∧ pc'.holdsInt = false))
    (huser : (s'.user = s.user ∧ (pc'.must = true → s.user = some t) ∧
        ((pc'.rel = true ∨ pc'.isDead = true) → s.user ≠ some t)) ∨
      (s.user = none ∧ s'.user = some t ∧ pc'.rel = false ∧ pc'.isDead = false) ∨
      (s.user = some t ∧ s'.user = none ∧ pc'.must = false))
    (hown : es.foldl ownStep s.user = s'.user)
    (hrel : es.foldl (relStep t) pc.rel = pc'.rel)
    (hrel' : ∀ u b, u ≠ t → es.foldl (relStep u) b = b) : Inv (tr ++ es) s' := by
  have hold : ∀ (u : Nat) (p' : PC), u ≠ t → s'.ths[u]? = some p' → ∃ p, s.ths[u]? = some p ∧ p'.cls = p.cls := by
    intro u p' hu hp'
    have := ho u hu
    rw [hp'] at this
    cases hp : s.ths[u]? with
    | none => rw [hp] at this; cases this
    | some p => rw [hp] at this; exact ⟨p, rfl, by simpa using this⟩
  have hnew : ∀ (u : Nat) (p : PC), s.ths[u]? = some p → ∃ p', s'.ths[u]? = some p' := by
    intro u p hp
    by_cases hu : u = t
    · exact ⟨pc', hu ▸ ht'⟩
    · have := ho u hu
      rw [hp] at this
      cases hp' : s'.ths[u]? with
      | none => rw [hp'] at this; cases this
      | some p' => exact ⟨p', rfl⟩
  constructor
  · intro u p' hp'
    by_cases hu : u = t
    · subst hu
      rw [ht'] at hp'; cases hp'
      rcases hint with ⟨h1, h2⟩ | ⟨h0, h1, h2⟩ | ⟨h0, h1, h2⟩
      · rw [h1, h2]; exact I.int u pc ht
      · simp [h1, h2]
      · simp [h1, h2]
    · obtain ⟨p, hp, hc⟩ := hold u p' hu hp'
      have hc1 : p'.holdsInt = p.holdsInt := congrArg (·.1) hc
      rw [hc1, I.int u p hp]
      rcases hint with ⟨h1, h2⟩ | ⟨h0, h1, h2⟩ | ⟨h0, h1, h2⟩
      · rw [h1]
      · rw [h0, h1]; simp; omega
      · have := (I.int t pc ht).mp h0
        rw [this, h1]; simp; omega
  · intro u hu
    rcases hint with ⟨h1, h2⟩ | ⟨h0, h1, h2⟩ | ⟨h0, h1, h2⟩
    · rw [h1] at hu
      obtain ⟨p, hp⟩ := I.intLt u hu
      exact hnew u p hp
    · rw [h1] at hu; cases hu; exact ⟨_, ht'⟩
    · rw [h1] at hu; cases hu
  · intro u p' hp' hm
    by_cases hu : u = t
    · subst hu
      rw [ht'] at hp'; cases hp'
      rcases huser with ⟨h1, h2, _⟩ | ⟨_, h1, _⟩ | ⟨_, _, h2⟩
      · rw [h1]; exact h2 hm
      · exact h1
      · rw [h2] at hm; cases hm
    · obtain ⟨p, hp, hc⟩ := hold u p' hu hp'
      have hc1 : p'.must = p.must := congrArg (·.2.1) hc
      have := I.must u p hp (hc1 ▸ hm)
      rcases huser with ⟨h1, _⟩ | ⟨h0, _⟩ | ⟨h0, _⟩
      · rw [h1]; exact this
      · rw [h0] at this; cases this
      · rw [h0] at this; cases this; exact absurd rfl hu
  · intro u p' hp' hm
    by_cases hu : u = t
    · subst hu
      rw [ht'] at hp'; cases hp'
      rcases huser with ⟨h1, _, h3⟩ | ⟨_, _, h1, h2⟩ | ⟨_, h1, _⟩
      · rw [h1]; exact h3 hm
      · rw [h1, h2] at hm; simp at hm
      · rw [h1]; simp
    · obtain ⟨p, hp, hc⟩ := hold u p' hu hp'
      have hc1 : p'.rel = p.rel := congrArg (·.2.2.1) hc
      have hc2 : p'.isDead = p.isDead := congrArg (·.2.2.2) hc
      have := I.not u p hp (by rw [← hc1, ← hc2]; exact hm)
      rcases huser with ⟨h1, _⟩ | ⟨_, h1, _⟩ | ⟨_, h1, _⟩
      · rw [h1]; exact this
      · rw [h1]; simp; omega
      · rw [h1]; simp
  · intro u hu
    rcases huser with ⟨h1, _⟩ | ⟨_, h1, _⟩ | ⟨_, h1, _⟩
    · rw [h1] at hu
      obtain ⟨p, hp⟩ := I.userLt u hu
      exact hnew u p hp
    · rw [h1] at hu; cases hu; exact ⟨_, ht'⟩
    · rw [h1] at hu; cases hu
  · rw [userOwner_append, I.own]; exact hown
  · intro u
    rw [hasReleased_append, I.rel u]
    by_cases hu : u = t
    · subst hu
      simp only [relAt, ht, ht']
      exact hrel
    · rw [hrel' u _ hu]
      have := ho u hu
      unfold relAt
      cases hp : s.ths[u]? with
      | none => rw [hp] at this; cases hp' : s'.ths[u]? with
        | none => rfl
        | some p' => rw [hp'] at this; cases this
      | some p => rw [hp] at this; cases hp' : s'.ths[u]? with
        | none => rw [hp'] at this; cases this
        | some p' =>
          rw [hp'] at this
          simp only [Option.map_some, Option.some.injEq] at this
          exact (congrArg (·.2.2.1) this).symm

theorem other_set {ths : List PC} {t : Nat} {pc' : PC} (u : Nat) (hu : u ≠ t) :
    (ths.set t pc')[u]?.map PC.cls = ths[u]?.map PC.cls := by
  rw [get_set_ne (Ne.symm hu)]

theorem relStep_other {u t : Nat} (h : u ≠ t) : (t = u) = False := by simp; omega

theorem step_inv (tr : List Ev) (s : St) (l : Nat × Act) (s' : St) (es : List Ev)
    (I : Inv tr s) (h : step s l = some (s', es)) : Inv (tr ++ es) s' := by
  obtain ⟨t, a⟩ := l
  unfold step at h
  simp only at h
  split at h
  · cases h
  next pc ht =>
  have hI := I.int t pc ht
  have hM := I.must t pc ht
  have hN := I.not t pc ht
  split at h
  · split at h
    · next h0 =>
      cases h
      exact inv_move I ht (by exact ht) (fun u hu => rfl) (Or.inl ⟨rfl, rfl⟩) (Or.inr (Or.inl ⟨h0, rfl, rfl, rfl⟩)) rfl rfl
        (fun u b hu => rfl)
    · cases h
  · split at h
    · next h0 =>
      cases h
      exact inv_move I ht (by exact ht) (fun u hu => rfl) (Or.inl ⟨rfl, rfl⟩) (Or.inr (Or.inr ⟨h0, rfl, rfl⟩)) rfl rfl
        (fun u b hu => rfl)
    · cases h
  · split at h
    · next h0 =>
      cases h
      exact inv_move I ht (get_set_self ht) other_set (Or.inl ⟨rfl, rfl⟩)
        (Or.inl ⟨rfl, fun _ => h0, by simp [PC.rel, PC.isDead]⟩) rfl rfl (fun u b hu => rfl)
    · cases h
  · cases h
    exact inv_move I ht (get_set_self ht) other_set (Or.inl ⟨rfl, rfl⟩)
        (Or.inl ⟨rfl, by simp [PC.must], by simp [PC.rel, PC.isDead]⟩) rfl rfl (fun u b hu => rfl)
  -- wLock go
  · split at h
    · next h0 =>
      cases h
      exact inv_move I ht (get_set_self ht) other_set (Or.inr (Or.inl ⟨h0, rfl, rfl⟩))
        (Or.inl ⟨rfl, fun _ => hM rfl, by simp [PC.rel, PC.isDead]⟩) rfl rfl (fun u b hu => rfl)
    · cases h
  · cases h
    exact inv_move I ht (get_set_self ht) other_set (Or.inl ⟨rfl, rfl⟩)
        (Or.inl ⟨rfl, by simp [PC.must], by simp [PC.rel, PC.isDead]⟩) rfl (by simp [relStep, PC.rel])
        (fun u b hu => by simp [relStep, relStep_other hu])
  -- wRelease go
  · next k =>
    cases h
    refine inv_move (pc' := if k = .clocked then .wClock else .wBlock k) I ht (get_set_self ht) other_set
        (Or.inl ⟨rfl, ?_⟩) (Or.inr (Or.inr ⟨hM rfl, rfl, ?_⟩)) rfl ?_
        (fun u b hu => by simp [relStep, relStep_other hu])
    · split <;> rfl
    · split <;> rfl
    · split <;> simp [relStep, PC.rel]
  · cases h
    exact inv_move I ht (get_set_self ht) other_set (Or.inl ⟨rfl, rfl⟩)
        (Or.inl ⟨rfl, fun _ => hM rfl, by simp [PC.rel, PC.isDead]⟩) rfl rfl (fun u b hu => rfl)
  · cases h
    exact inv_move I ht (get_set_self ht) other_set (Or.inr (Or.inr ⟨rfl, rfl, rfl⟩))
        (Or.inl ⟨rfl, by simp [PC.must], by simp [PC.rel, PC.isDead]⟩) rfl (by simp [relStep, PC.rel])
        (fun u b hu => by simp [relStep, relStep_other hu])
  -- wBlock
  · cases h
    exact inv_move I ht (get_set_self ht) other_set (Or.inr (Or.inr ⟨rfl, rfl, rfl⟩))
        (Or.inl ⟨rfl, by simp [PC.must], fun _ => hN (Or.inl rfl)⟩) rfl rfl (fun u b hu => rfl)
  · cases h
    exact inv_move I ht (get_set_self ht) other_set (Or.inl ⟨rfl, rfl⟩)
        (Or.inl ⟨rfl, by simp [PC.must], fun _ => hN (Or.inl rfl)⟩) rfl rfl (fun u b hu => rfl)
  -- blocked
  · cases h
    exact inv_move I ht (get_set_self ht) other_set (Or.inl ⟨rfl, rfl⟩)
        (Or.inl ⟨rfl, by simp [PC.must], fun _ => hN (Or.inl rfl)⟩) rfl rfl (fun u b hu => rfl)
  · cases h
    exact inv_move I ht (get_set_self ht) other_set (Or.inl ⟨rfl, rfl⟩)
        (Or.inl ⟨rfl, by simp [PC.must], fun _ => hN (Or.inl rfl)⟩) rfl rfl (fun u b hu => rfl)
  · cases h
    exact inv_move I ht (get_set_self ht) other_set (Or.inl ⟨rfl, rfl⟩)
        (Or.inl ⟨rfl, by simp [PC.must], fun _ => hN (Or.inl rfl)⟩) rfl rfl (fun u b hu => rfl)
  -- wake
  · next k r =>
    split at h
    · next h0 =>
      cases h
      refine inv_move (pc' := if k = .clocked ∧ r = .timeout then .wClock else .wExit r) I ht (get_set_self ht) other_set
        (Or.inr (Or.inl ⟨h0, rfl, ?_⟩)) (Or.inl ⟨rfl, ?_, fun _ => hN (Or.inl rfl)⟩) rfl ?_ (fun u b hu => rfl)
      · split <;> rfl
      · split <;> simp [PC.must]
      · split <;> rfl
    · cases h
  -- wClock
  · cases h
    exact inv_move I ht (get_set_self ht) other_set (Or.inl ⟨rfl, rfl⟩)
        (Or.inl ⟨rfl, by simp [PC.must], fun _ => hN (Or.inl rfl)⟩) rfl rfl (fun u b hu => rfl)
  · cases h
    exact inv_move I ht (get_set_self ht) other_set (Or.inl ⟨rfl, rfl⟩)
        (Or.inl ⟨rfl, by simp [PC.must], fun _ => hN (Or.inl rfl)⟩) rfl rfl (fun u b hu => rfl)
  -- wExit
  · cases h
    exact inv_move I ht (get_set_self ht) other_set (Or.inr (Or.inr ⟨rfl, rfl, rfl⟩))
        (Or.inl ⟨rfl, by simp [PC.must], fun _ => hN (Or.inl rfl)⟩) rfl rfl (fun u b hu => rfl)
  -- wRelock
  · split at h
    · next h0 =>
      cases h
      exact inv_move I ht (get_set_self ht) other_set (Or.inl ⟨rfl, rfl⟩)
        (Or.inr (Or.inl ⟨h0, rfl, rfl, rfl⟩)) rfl (by simp [relStep, PC.rel])
        (fun u b hu => by simp [relStep, relStep_other hu])
    · cases h
  · split at h
    · cases h
      exact inv_move I ht (get_set_self ht) other_set (Or.inl ⟨rfl, rfl⟩)
        (Or.inl ⟨rfl, by simp [PC.must], fun _ => hN (Or.inl rfl)⟩) rfl (by simp [relStep, PC.rel])
        (fun u b hu => by simp [relStep, relStep_other hu])
    · cases h
      exact inv_move I ht (get_set_self ht) other_set (Or.inl ⟨rfl, rfl⟩)
        (Or.inl ⟨rfl, by simp [PC.must], fun _ => hN (Or.inl rfl)⟩) rfl (by simp [relStep, PC.rel])
        (fun u b hu => by simp [relStep, relStep_other hu])
  -- nLock
  · split at h
    · next h0 =>
      cases h
      exact inv_move I ht (get_set_self ht) other_set (Or.inr (Or.inl ⟨h0, rfl, rfl⟩))
        (Or.inl ⟨rfl, by simp [PC.must], by simp [PC.rel, PC.isDead]⟩) rfl rfl (fun u b hu => rfl)
    · cases h
  · cases h
    exact inv_move I ht (get_set_self ht) other_set (Or.inl ⟨rfl, rfl⟩)
        (Or.inl ⟨rfl, by simp [PC.must], by simp [PC.rel, PC.isDead]⟩) rfl rfl (fun u b hu => rfl)
  -- nSignal wakes
  · next v =>
    split at h
    · next k hv =>
      cases h
      have hne : v ≠ t := by rintro rfl; rw [ht] at hv; cases hv
      refine inv_move (pc' := .nUnlock) I ht ?_ ?_ (Or.inl ⟨rfl, rfl⟩)
        (Or.inl ⟨rfl, by simp [PC.must], by simp [PC.rel, PC.isDead]⟩) rfl rfl (fun u b hu => rfl)
      · exact get_set_self (a := .nSignal false) (by rw [get_set_ne hne]; exact ht)
      · intro u hu
        show (((s.ths.set v (.wake k .ok)).set t .nUnlock)[u]?).map PC.cls = _
        rw [get_set_ne (Ne.symm hu)]
        by_cases huv : u = v
        · subst huv
          rw [get_set_self hv, hv]; rfl
        · rw [get_set_ne (Ne.symm huv)]
    · cases h
  · split at h
    · cases h
    · cases h
      exact inv_move I ht (get_set_self ht) other_set (Or.inl ⟨rfl, rfl⟩)
        (Or.inl ⟨rfl, by simp [PC.must], by simp [PC.rel, PC.isDead]⟩) rfl rfl (fun u b hu => rfl)
  · cases h
    refine inv_move (pc' := .nUnlock) I ht ?_ ?_ (Or.inl ⟨rfl, rfl⟩)
        (Or.inl ⟨rfl, by simp [PC.must], by simp [PC.rel, PC.isDead]⟩) rfl rfl (fun u b hu => rfl)
    · exact get_set_self (a := .nSignal true) (by rw [List.getElem?_map, ht]; rfl)
    · intro u hu
      show (((s.ths.map PC.wakeUp).set t .nUnlock)[u]?).map PC.cls = _
      rw [get_set_ne (Ne.symm hu), List.getElem?_map]
      cases s.ths[u]? with
      | none => rfl
      | some p => simp [cls_wakeUp]
  · cases h
    exact inv_move I ht (get_set_self ht) other_set (Or.inr (Or.inr ⟨rfl, rfl, rfl⟩))
        (Or.inl ⟨rfl, by simp [PC.must], by simp [PC.rel, PC.isDead]⟩) rfl rfl (fun u b hu => rfl)
  · cases h

theorem inv_exec {n : Nat} {tr : List Ev} {s : St} (h : Exec step (init n) tr s) : Inv tr s :=
  h.invariant Inv (inv_init n) step_inv

end Verif.CvAny
