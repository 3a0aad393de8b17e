import Verif.Base.Count
import Verif.Spec.WinGetEvent

/-! Invariants of `get_event`. -/

namespace Verif.WinGetEvent

/-- The handle owned by a thread between creation and the end of the call. -/
def PC.holds (h : Nat) : PC → Bool
  | .cas h' | .close h' _ => h' = h
  | _ => false

/-- `h` is the stored event. -/
def isEv (event h : Nat) : Bool := decide (h = event ∧ h ≠ 0)

/-- The value a thread is going to return. -/
def PC.ok (event : Nat) : PC → Prop
  | .cas h => h ≠ 0
  | .close h old => old = event ∧ event ≠ 0 ∧ h ≠ 0
  | _ => True

structure Inv (tr : List Ev) (s : St) : Prop where
  opened : ∀ h, s.opened.count h = b2n (isEv s.event h) + s.ths.countP (PC.holds h)
  nodup : s.opened.Nodup
  loc : ∀ (i : Nat) (pc : PC), s.ths[i]? = some pc → pc.ok s.event
  ret : ∀ t h, Ev.returned t h ∈ tr → h = s.event ∧ h ≠ 0
  bal : ∀ h, creations h tr = closings h tr + s.opened.count h

theorem inv_init (n : Nat) : Inv [] (init n) where
  opened := by
    intro h
    simp only [init]
    rw [countP_replicate_false rfl]
    have : isEv 0 h = false := by simp [isEv]
    rw [this]; rfl
  nodup := List.nodup_nil
  loc := by intro i pc h; rw [get_replicate h]; trivial
  ret := by intro t h hm; cases hm
  bal := by intro h; rfl

theorem creations_append (h : Nat) (tr es : List Ev) : creations h (tr ++ es) = creations h tr + creations h es :=
  List.countP_append
theorem closings_append (h : Nat) (tr es : List Ev) : closings h (tr ++ es) = closings h tr + closings h es :=
  List.countP_append

/-- A step that touches only the program counter. -/
theorem inv_goto {tr es : List Ev} {s : St} {t : Nat} {pc pc' : PC} (I : Inv tr s) (ht : s.ths[t]? = some pc)
    (hh : ∀ h, pc'.holds h = pc.holds h) (hok : pc'.ok s.event)
    (hret : ∀ t h, Ev.returned t h ∈ es → h = s.event ∧ h ≠ 0)
    (hc : ∀ h, creations h es = 0) (hd : ∀ h, closings h es = 0) :
    Inv (tr ++ es) { s with ths := s.ths.set t pc' } := by
  constructor
  · intro h
    have c := countP_set (p := PC.holds h) (b := pc') ht
    rw [hh h] at c
    have := I.opened h
    simp only
    omega
  · exact I.nodup
  · exact forall_set I.loc hok
  · intro t h hm
    rcases List.mem_append.mp hm with hm | hm
    · exact I.ret t h hm
    · exact hret t h hm
  · intro h
    rw [creations_append, closings_append, hc, hd]
    exact I.bal h

theorem step_inv (tr : List Ev) (s : St) (l : Nat × Act) (s' : St) (es : List Ev)
    (I : Inv tr s) (h : step s l = some (s', es)) : Inv (tr ++ es) s' := by
  obtain ⟨t, a⟩ := l
  unfold step at h
  simp only at h
  split at h
  · cases h
  next pc ht =>
  have hloc := I.loc t pc ht
  split at h
  · cases h; exact inv_goto I ht (fun _ => rfl) trivial (by simp) (fun _ => rfl) (fun _ => rfl)
  · split at h
    · cases h; exact inv_goto I ht (fun _ => rfl) trivial (by simp) (fun _ => rfl) (fun _ => rfl)
    · next h0 =>
      cases h
      refine inv_goto I ht (fun _ => rfl) trivial ?_ (fun _ => rfl) (fun _ => rfl)
      intro t' h' hm
      simp only [List.mem_singleton, Ev.returned.injEq] at hm
      rw [hm.2]
      exact ⟨rfl, h0⟩
  · cases h; exact inv_goto I ht (fun _ => rfl) trivial (by simp) (fun _ => rfl) (fun _ => rfl)
  · next hd =>
    split at h
    · cases h
    · next hnew =>
      cases h
      have hne : hd ≠ 0 := fun h => hnew (Or.inl h)
      have hno : hd ∉ s.opened := fun h => hnew (Or.inr h)
      constructor
      · intro x
        have c := countP_set (p := PC.holds x) (b := .cas hd) ht
        have o := I.opened x
        simp only
        rw [List.count_cons]
        by_cases hx : hd = x
        · subst hx
          simp [PC.holds] at c
          simp
          omega
        · simp [PC.holds, hx] at c
          simp [hx]
          omega
      · exact List.nodup_cons.mpr ⟨hno, I.nodup⟩
      · exact forall_set I.loc hne
      · intro t' h' hm
        simp at hm
        exact I.ret t' h' hm
      · intro x
        rw [creations_append, closings_append]
        have := I.bal x
        simp only [creations, closings, List.countP_cons, List.countP_nil, List.count_cons] at *
        by_cases hx : hd = x <;> simp [hx] at * <;> omega
  · cases h; exact inv_goto I ht (fun _ => rfl) trivial (by simp) (fun _ => rfl) (fun _ => rfl)
  · next hd =>
    have hne : hd ≠ 0 := hloc
    split at h
    · next h0 =>
      cases h
      constructor
      · intro x
        have c := countP_set (p := PC.holds x) (b := .idle) ht
        have o := I.opened x
        simp only
        have e1 : isEv s.event x = false := by rw [h0]; simp [isEv]
        rw [e1] at o
        by_cases hx : hd = x
        · subst hx
          simp [PC.holds] at c
          simp [isEv, hne] at o ⊢
          omega
        · simp [PC.holds, hx] at c
          simp [isEv, Ne.symm hx] at o ⊢
          omega
      · exact I.nodup
      · intro i pc' hi
        have hall : ∀ (j : Nat) (a : PC), s.ths[j]? = some a → a.ok hd := by
          intro j a ha
          have := I.loc j a ha
          cases a with
          | close h old => exact absurd h0 this.2.1
          | cas h => exact this
          | _ => trivial
        exact forall_set (P := fun pc => pc.ok hd) hall (b := .idle) trivial i pc' hi
      · intro t' h' hm
        simp only [List.mem_append, List.mem_singleton, Ev.returned.injEq] at hm
        rcases hm with hm | ⟨_, rfl⟩
        · have := I.ret t' h' hm
          omega
        · exact ⟨rfl, hne⟩
      · intro x
        rw [creations_append, closings_append]
        exact I.bal x
    · next h0 =>
      cases h
      exact inv_goto I ht (fun _ => rfl) ⟨rfl, h0, hne⟩ (by simp) (fun _ => rfl) (fun _ => rfl)
  · next hd old =>
    cases h
    obtain ⟨rfl, h0, hne⟩ := hloc
    have o := I.opened hd
    have hmem : 1 ≤ s.opened.count hd := by
      have := countP_pos_of_get (p := PC.holds hd) ht (by simp [PC.holds])
      omega
    constructor
    · intro x
      have c := countP_set (p := PC.holds x) (b := .idle) ht
      have ox := I.opened x
      simp only
      rw [List.count_erase]
      by_cases hx : hd = x
      · subst hx
        simp [PC.holds] at c
        simp
        omega
      · simp [PC.holds, hx] at c
        simp [hx]
        omega
    · exact I.nodup.erase hd
    · exact forall_set I.loc trivial
    · intro t' h' hm
      simp at hm
      rcases hm with hm | hm
      · exact I.ret t' h' hm
      · rw [hm.2]; exact ⟨rfl, h0⟩
    · intro x
      rw [creations_append, closings_append]
      have := I.bal x
      rw [List.count_erase]
      simp only [creations, closings, List.countP_cons, List.countP_nil] at *
      by_cases hx : hd = x
      · subst hx; simp; omega
      · simp [hx]; omega
  · cases h

theorem inv_exec {n : Nat} {tr : List Ev} {s : St} (h : Exec step (init n) tr s) : Inv tr s :=
  Exec.invariant Inv (inv_init n) step_inv h

/-- Once set, the event does not change. -/
theorem event_stable {s s' : St} {l : Nat × Act} {es : List Ev} (h0 : s.event ≠ 0) (h : step s l = some (s', es)) :
    s'.event = s.event := by
  obtain ⟨t, a⟩ := l
  unfold step at h
  simp only at h
  split at h
  · cases h
  split at h
  · cases h; rfl
  · split at h <;> (cases h; rfl)
  · cases h; rfl
  · split at h <;> (cases h; try rfl)
  · cases h; rfl
  · split at h
    · next h1 => exact absurd h1 h0
    · cases h; rfl
  · cases h; rfl
  · cases h

end Verif.WinGetEvent
