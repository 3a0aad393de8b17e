/-!
# Counting threads

`List.countP` over the list of per-thread states, and how it changes when one thread moves.
-/

namespace Verif

variable {α : Type}

/-- 0/1 value of a Boolean. -/
def b2n (b : Bool) : Nat := if b then 1 else 0

@[simp] theorem b2n_true : b2n true = 1 := rfl
@[simp] theorem b2n_false : b2n false = 0 := rfl

theorem b2n_le_one (b : Bool) : b2n b ≤ 1 := by cases b <;> simp

/-- Moving thread `i` from `a` to `b`. -/
theorem countP_set {p : α → Bool} {l : List α} {i : Nat} {a b : α} (h : l[i]? = some a) :
    (l.set i b).countP p + b2n (p a) = l.countP p + b2n (p b) := by
  induction l generalizing i with
  | nil => simp at h
  | cons x xs ih =>
    cases i with
    | zero =>
      simp only [List.getElem?_cons_zero, Option.some.injEq] at h
      subst h
      simp only [List.set_cons_zero, List.countP_cons, b2n]
      omega
    | succ i =>
      simp only [List.getElem?_cons_succ] at h
      have := ih h
      simp only [List.set_cons_succ, List.countP_cons]
      omega

theorem countP_pos_of_get {p : α → Bool} {l : List α} {i : Nat} {a : α} (h : l[i]? = some a)
    (hp : p a = true) : 1 ≤ l.countP p := by
  have : 0 < l.countP p := List.countP_pos_iff.mpr ⟨a, List.mem_of_getElem? h, hp⟩
  omega

theorem b2n_le_countP {p : α → Bool} {l : List α} {i : Nat} {a : α} (h : l[i]? = some a) :
    b2n (p a) ≤ l.countP p := by
  cases hp : p a
  · simp
  · simpa using countP_pos_of_get h hp

/-- Two different positions satisfying `p` are counted twice. -/
theorem countP_two {p : α → Bool} {l : List α} {i j : Nat} {a b : α} (hij : i ≠ j)
    (hi : l[i]? = some a) (hj : l[j]? = some b) (ha : p a = true) (hb : p b = true) :
    2 ≤ l.countP p := by
  induction l generalizing i j with
  | nil => simp at hi
  | cons x xs ih =>
    cases i with
    | zero =>
      cases j with
      | zero => exact absurd rfl hij
      | succ j =>
        simp only [List.getElem?_cons_zero, Option.some.injEq] at hi
        subst hi
        simp only [List.getElem?_cons_succ] at hj
        have := countP_pos_of_get (p := p) hj hb
        simp only [List.countP_cons, ha, if_true]
        omega
    | succ i =>
      simp only [List.getElem?_cons_succ] at hi
      cases j with
      | zero =>
        simp only [List.getElem?_cons_zero, Option.some.injEq] at hj
        subst hj
        have := countP_pos_of_get (p := p) hi ha
        simp only [List.countP_cons, hb, if_true]
        omega
      | succ j =>
        simp only [List.getElem?_cons_succ] at hj
        have := ih (by omega) hi hj
        simp only [List.countP_cons]
        omega

/-- The positions satisfying two disjoint predicates. -/
theorem countP_add_le_length {p q : α → Bool} {l : List α}
    (hd : ∀ a, p a = true → q a = true → False) : l.countP p + l.countP q ≤ l.length := by
  induction l with
  | nil => simp
  | cons x xs ih =>
    simp only [List.countP_cons, List.length_cons]
    have := hd x
    cases hp : p x <;> cases hq : q x <;> simp_all <;> omega

/-- If `p` implies `q` pointwise, counts are ordered. -/
theorem countP_le {p q : α → Bool} {l : List α} (h : ∀ a, p a = true → q a = true) :
    l.countP p ≤ l.countP q :=
  List.countP_mono_left (fun a _ ha => h a ha)

/-- A partition of a predicate splits its count. -/
theorem countP_split {p q r : α → Bool} {l : List α} (h : ∀ a, b2n (p a) = b2n (q a) + b2n (r a)) :
    l.countP p = l.countP q + l.countP r := by
  induction l with
  | nil => simp
  | cons x xs ih =>
    simp only [List.countP_cons]
    have := h x
    simp only [b2n] at this
    omega

theorem exists_of_countP_pos {p : α → Bool} {l : List α} (h : 0 < l.countP p) :
    ∃ (i : Nat) (a : α), l[i]? = some a ∧ p a = true := by
  obtain ⟨a, ha, hp⟩ := List.countP_pos_iff.mp h
  obtain ⟨i, hi, rfl⟩ := List.getElem_of_mem ha
  exact ⟨i, _, List.getElem?_eq_getElem hi, hp⟩

theorem countP_eq_zero_of_forall {p : α → Bool} {l : List α}
    (h : ∀ (i : Nat) (a : α), l[i]? = some a → p a = false) : l.countP p = 0 := by
  apply List.countP_eq_zero.mpr
  intro a ha
  obtain ⟨i, hi, rfl⟩ := List.getElem_of_mem ha
  simpa using h i _ (List.getElem?_eq_getElem hi)

/-- Pointwise invariants survive a move of one thread. -/
theorem forall_set {P : α → Prop} {l : List α} {i : Nat} {b : α}
    (h : ∀ (j : Nat) (a : α), l[j]? = some a → P a) (hb : P b) :
    ∀ (j : Nat) (a : α), (l.set i b)[j]? = some a → P a := by
  intro j a hj
  rw [List.getElem?_set] at hj
  split at hj
  · split at hj
    · cases hj; exact hb
    · cases hj
  · exact h j a hj

theorem get_set_self {l : List α} {i : Nat} {a b : α} (h : l[i]? = some a) :
    (l.set i b)[i]? = some b := by
  have : i < l.length := (List.getElem?_eq_some_iff.mp h).1
  simp [this]

theorem get_set_ne {l : List α} {i j : Nat} {b : α} (h : i ≠ j) :
    (l.set i b)[j]? = l[j]? := by
  simp [h]

/-- What is found after a move. -/
theorem get_set_cases {l : List α} {i j : Nat} {a b : α} (h : (l.set i b)[j]? = some a) :
    (i = j ∧ a = b) ∨ (i ≠ j ∧ l[j]? = some a) := by
  by_cases hij : i = j
  · subst hij
    left
    rw [List.getElem?_set] at h
    simp only [if_true] at h
    split at h
    · cases h; exact ⟨rfl, rfl⟩
    · cases h
  · right
    exact ⟨hij, by rw [get_set_ne hij] at h; exact h⟩

theorem countP_replicate_false {p : α → Bool} {a : α} (h : p a = false) (n : Nat) :
    (List.replicate n a).countP p = 0 := by
  apply countP_eq_zero_of_forall
  intro i x hx
  rw [List.getElem?_replicate] at hx
  split at hx
  · cases hx; exact h
  · cases hx

theorem get_replicate {a x : α} {n i : Nat} (h : (List.replicate n a)[i]? = some x) : x = a := by
  rw [List.getElem?_replicate] at h
  split at h
  · cases h; rfl
  · cases h

end Verif
