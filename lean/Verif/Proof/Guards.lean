import Verif.Spec.Guards

namespace Verif.Guards

/-- A unique_lock object has lost its mutex. -/
def Lost (s s' : St) (m : Nat) : Prop := ∃ i : Nat, s.objs[i]? = some (m, true) ∧ s'.objs[i]? = some (m, false)

structure Rel (s s' : St) : Prop where
  len : s'.objs.length = s.objs.length
  obj : ∀ i : Nat, s'.objs[i]? = s.objs[i]? ∨ ∃ m, s.objs[i]? = some (m, true) ∧ s'.objs[i]? = some (m, false)
  held : ∀ m, (¬ Lost s s' m ∧ s'.held m = s.held m) ∨ (Lost s s' m ∧ s'.held m = { s.held m with excl := false })

structure Inv (U : Nat → Bool) (s : St) : Prop where
  dom : ∀ (i : Nat) e, s.objs[i]? = some e → U e.1 = true
  own : ∀ (i : Nat) m, s.objs[i]? = some (m, true) → (s.held m).excl = true
  uniq : ∀ (i j : Nat) m, s.objs[i]? = some (m, true) → s.objs[j]? = some (m, true) → i = j

def NotOwned (s : St) (m : Nat) : Prop := ∀ i : Nat, s.objs[i]? ≠ some (m, true)

theorem Rel.refl (s : St) : Rel s s :=
  ⟨rfl, fun _ => .inl rfl, fun m => .inl ⟨(by rintro ⟨i, h1, h2⟩; rw [h1] at h2; cases h2), rfl⟩⟩

theorem Rel.true_of_true {s s' : St} (h : Rel s s') {i m : Nat} (hi : s'.objs[i]? = some (m, true)) : s.objs[i]? = some (m, true) := by
  rcases h.obj i with he | ⟨n, h1, h2⟩
  · rw [← he]; exact hi
  · rw [hi] at h2; cases h2

theorem Rel.false_of_false {s s' : St} (h : Rel s s') {i m : Nat} (hi : s.objs[i]? = some (m, false)) : s'.objs[i]? = some (m, false) := by
  rcases h.obj i with he | ⟨n, h1, h2⟩
  · rw [he]; exact hi
  · rw [hi] at h1; cases h1

theorem Rel.notOwned {s s' : St} (h : Rel s s') {m} (hn : NotOwned s m) : NotOwned s' m := fun i hi => hn i (h.true_of_true hi)

theorem not_lost {s s' : St} {m} (hn : NotOwned s m) : ¬ Lost s s' m := fun ⟨i, h, _⟩ => hn i h

theorem Rel.held_eq {s s' : St} (h : Rel s s') {m} (hn : NotOwned s m) : s'.held m = s.held m := by
  rcases h.held m with ⟨_, h⟩ | ⟨hl, _⟩
  · exact h
  · exact absurd hl (not_lost hn)

theorem Rel.trans {s₁ s₂ s₃ : St} (h : Rel s₁ s₂) (h' : Rel s₂ s₃) : Rel s₁ s₃ := by
  have lost_iff : ∀ m, Lost s₁ s₃ m ↔ Lost s₁ s₂ m ∨ Lost s₂ s₃ m := by
    intro m
    constructor
    · rintro ⟨i, h1, h2⟩
      rcases h.obj i with he | ⟨n, h3, h4⟩
      · exact .inr ⟨i, he.trans h1, h2⟩
      · rw [h1] at h3; cases h3; exact .inl ⟨i, h1, h4⟩
    · rintro (⟨i, h1, h2⟩ | ⟨i, h1, h2⟩)
      · exact ⟨i, h1, h'.false_of_false h2⟩
      · exact ⟨i, h.true_of_true h1, h2⟩
  refine ⟨h'.len.trans h.len, fun i => ?_, fun m => ?_⟩
  · rcases h'.obj i with he | ⟨n, h1, h2⟩
    · rw [he]; exact h.obj i
    · exact .inr ⟨n, h.true_of_true h1, h2⟩
  · rw [lost_iff]
    rcases h.held m with ⟨a, b⟩ | ⟨a, b⟩ <;> rcases h'.held m with ⟨c, d⟩ | ⟨c, d⟩
    · exact .inl ⟨fun x => x.elim a c, d.trans b⟩
    · exact .inr ⟨.inr c, by rw [d, b]⟩
    · exact .inr ⟨.inl a, by rw [d, b]⟩
    · exact .inr ⟨.inr c, by rw [d, b]⟩

theorem Inv.rel {U} {s s' : St} (hi : Inv U s) (h : Rel s s') : Inv U s' := by
  refine ⟨fun i e he => ?_, fun i m hm => ?_, fun i j m h1 h2 => hi.uniq i j m (h.true_of_true h1) (h.true_of_true h2)⟩
  · rcases h.obj i with hx | ⟨m, h1, h2⟩
    · exact hi.dom i e (by rw [← hx]; exact he)
    · rw [he] at h2; cases h2; exact (hi.dom i _ h1 : U m = true)
  · have ho := h.true_of_true hm
    rcases h.held m with ⟨_, b⟩ | ⟨⟨j, h1, h2⟩, _⟩
    · rw [b]; exact hi.own i m ho
    · have := hi.uniq i j m ho h1; subst this; rw [hm] at h2; cases h2

theorem Inv.notOwned {U} {s : St} (hi : Inv U s) {m} (h : (s.held m).excl = false) : NotOwned s m := by
  intro i hx; rw [hi.own i m hx] at h; cases h

theorem Inv.setHeld {U} {s : St} (hi : Inv U s) {m} (hn : NotOwned s m) (h : Held) : Inv U (setHeld s m h) := by
  refine ⟨hi.dom, fun i n hx => ?_, hi.uniq⟩
  by_cases hnm : n = m
  · subst hnm; exact absurd hx (hn i)
  · simp only [Guards.setHeld, hnm, if_false]; exact hi.own i n hx

/-- A block that changes a mutex owned by no lock object and changes it back. -/
theorem Rel.through {s s₂ : St} {m : Nat} {h : Held} (hn : NotOwned s m) (hr : Rel (setHeld s m h) s₂) :
    s₂.held m = h ∧ Rel s (setHeld s₂ m (s.held m)) := by
  have e := hr.held_eq (m := m) (fun i hx => hn i hx)
  refine ⟨by rw [e]; simp [setHeld], hr.len, hr.obj, fun n => ?_⟩
  by_cases hnm : n = m
  · subst hnm; exact .inl ⟨not_lost hn, by simp [setHeld]⟩
  · rcases hr.held n with ⟨a, b⟩ | ⟨a, b⟩
    · exact .inl ⟨a, by simp only [setHeld, hnm, if_false] at b ⊢; exact b⟩
    · exact .inr ⟨a, by simp only [setHeld, hnm, if_false] at b ⊢; exact b⟩

/-! ## Promises -/

def Match (h₀ : Nat → Held) (ctx : Ctx) (s : St) : Prop :=
  Promised h₀ ⟨ctx, s⟩ ∧ ∀ m, innermost ctx m = some .locked ∨ innermost ctx m = none → NotOwned s m

theorem mem_iff {s : St} {m} : (m, true) ∈ s.objs ↔ ∃ i : Nat, s.objs[i]? = some (m, true) := List.mem_iff_getElem?

theorem Match.rel {U h₀ ctx} {s s' : St} (hi : Inv U s) (hm : Match h₀ ctx s) (h : Rel s s') : Match h₀ ctx s' := by
  obtain ⟨hp, hn⟩ := hm
  refine ⟨fun m => ?_, fun m hx => h.notOwned (hn m hx)⟩
  obtain ⟨p1, p2, p3, p4, p5⟩ := hp m
  dsimp only at *
  have hsh : (s'.held m).shared = (s.held m).shared := by
    rcases h.held m with ⟨_, b⟩ | ⟨_, b⟩ <;> rw [b]
  refine ⟨by rw [hsh]; exact p1, fun hx => ?_, fun hx => ?_, fun hx => ?_, fun hx => ?_⟩
  · rw [h.held_eq (hn m (.inl hx))]; exact p2 hx
  · rcases h.held m with ⟨_, b⟩ | ⟨_, b⟩ <;> rw [b]; exact p3 hx
  · have p := p4 hx
    rcases h.held m with ⟨a, b⟩ | ⟨a, b⟩
    · rw [b, p, mem_iff, mem_iff]
      constructor
      · rintro ⟨i, hi⟩
        rcases h.obj i with he | ⟨n, h1, h2⟩
        · exact ⟨i, he.trans hi⟩
        · rw [hi] at h1; cases h1; exact absurd ⟨i, hi, h2⟩ a
      · rintro ⟨i, hi⟩; exact ⟨i, h.true_of_true hi⟩
    · rw [b]
      simp only [Bool.false_eq_true, false_iff]
      rw [mem_iff]
      rintro ⟨j, hj⟩
      obtain ⟨i, h1, h2⟩ := a
      have := hi.uniq i j m h1 (h.true_of_true hj); subst this; rw [hj] at h2; cases h2
  · rw [h.held_eq (hn m (.inr hx))]; exact p5 hx

theorem innermost_cons_ne {n p ctx m} (h : n ≠ m) : innermost ((n, p) :: ctx) m = innermost ctx m := by
  simp [innermost, h]

theorem count_cons_ne {n p} {ctx : Ctx} {m} (h : n ≠ m) : ((n, p) :: ctx).count (m, .shared) = ctx.count (m, .shared) := by
  rw [List.count_cons_of_ne]; simp [h]

theorem match_locked {h₀ ctx} {s : St} {m} (hm : Match h₀ ctx s) (hn : NotOwned s m) :
    Match h₀ ((m, .locked) :: ctx) (setHeld s m { s.held m with excl := true }) := by
  refine ⟨fun n => ?_, fun n hx => ?_⟩
  · by_cases h : n = m
    · subst h
      obtain ⟨p1, _⟩ := hm.1 n
      refine ⟨?_, ?_⟩
      · simp only [setHeld, if_true]; rw [List.count_cons_of_ne (by simp)]; exact p1
      · simp [innermost, setHeld]
    · have := hm.1 n
      simp only [setHeld, h, if_false, innermost_cons_ne (Ne.symm h), count_cons_ne (Ne.symm h)] at this ⊢
      exact this
  · by_cases h : n = m
    · subst h; exact hn
    · rw [innermost_cons_ne (Ne.symm h)] at hx; exact hm.2 n hx

theorem match_unlocked {h₀ ctx} {s : St} {m} (hm : Match h₀ ctx s) :
    Match h₀ ((m, .unlocked) :: ctx) (setHeld s m { s.held m with excl := false }) := by
  refine ⟨fun n => ?_, fun n hx => ?_⟩
  · by_cases h : n = m
    · subst h
      obtain ⟨p1, _⟩ := hm.1 n
      refine ⟨?_, ?_⟩
      · simp only [setHeld, if_true]; rw [List.count_cons_of_ne (by simp)]; exact p1
      · simp [innermost, setHeld]
    · have := hm.1 n
      simp only [setHeld, h, if_false, innermost_cons_ne (Ne.symm h), count_cons_ne (Ne.symm h)] at this ⊢
      exact this
  · by_cases h : n = m
    · subst h; simp [innermost] at hx
    · rw [innermost_cons_ne (Ne.symm h)] at hx; exact hm.2 n hx

theorem match_shared {h₀ ctx} {s : St} {m} (hm : Match h₀ ctx s) :
    Match h₀ ((m, .shared) :: ctx) (setHeld s m { s.held m with shared := (s.held m).shared + 1 }) := by
  have inn : ∀ n, innermost ((m, .shared) :: ctx) n = innermost ctx n := by intro n; simp [innermost]
  refine ⟨fun n => ?_, fun n hx => hm.2 n (by rw [inn] at hx; exact hx)⟩
  by_cases h : n = m
  · subst h
    obtain ⟨p1, p⟩ := hm.1 n
    simp only [setHeld, if_true, inn] at p1 p ⊢
    refine ⟨?_, p⟩
    rw [List.count_cons_self]; omega
  · have := hm.1 n
    simp only [setHeld, h, if_false, inn, count_cons_ne (Ne.symm h)] at this ⊢
    exact this

theorem match_push {h₀ ctx} {s : St} {m} (hm : Match h₀ ctx s) :
    Match h₀ ((m, .lockObj) :: ctx) { setHeld s m { s.held m with excl := true } with objs := (m, true) :: s.objs } := by
  refine ⟨fun n => ?_, fun n hx => ?_⟩
  · by_cases h : n = m
    · subst h
      obtain ⟨p1, _⟩ := hm.1 n
      refine ⟨?_, ?_⟩
      · simp only [setHeld, if_true]; rw [List.count_cons_of_ne (by simp)]; exact p1
      · simp [innermost, setHeld]
    · have := hm.1 n
      simp only [setHeld, h, if_false, innermost_cons_ne (Ne.symm h), count_cons_ne (Ne.symm h), List.mem_cons, Prod.mk.injEq,
        false_and, false_or] at this ⊢
      exact this
  · by_cases h : n = m
    · subst h; simp [innermost] at hx
    · rw [innermost_cons_ne (Ne.symm h)] at hx
      intro i
      cases i with
      | zero => simp only [List.getElem?_cons_zero]; intro he; simp only [Option.some.injEq, Prod.mk.injEq] at he; exact h he.1.symm
      | succ i => simp only [List.getElem?_cons_succ]; exact hm.2 n hx i

theorem get_set_objs {l : List (Nat × Bool)} {i j : Nat} {m b e} (hi : l[i]? = some (m, b)) :
    (l.set i e)[j]? = if i = j then some e else l[j]? := by
  have hl : i < l.length := by
    rcases Nat.lt_or_ge i l.length with h | h
    · exact h
    · rw [List.getElem?_eq_none h] at hi; cases hi
  rw [List.getElem?_set]
  by_cases h : i = j
  · simp [h, h ▸ hl]
  · simp [h]

theorem match_unlockObj {h₀ ctx} {s : St} {m i} (hm : Match h₀ ctx s) (hi : s.objs[i]? = some (m, true)) :
    Match h₀ ((m, .unlocked) :: ctx) { setHeld s m { s.held m with excl := false } with objs := s.objs.set i (m, false) } := by
  have keep : ∀ n, n ≠ m → ∀ j : Nat, (s.objs.set i (m, false))[j]? = some (n, true) ↔ s.objs[j]? = some (n, true) := by
    intro n hn j
    rw [get_set_objs hi]
    split
    · next h => subst h; rw [hi]; simp [Ne.symm hn]
    · rfl
  refine ⟨fun n => ?_, fun n hx => ?_⟩
  · by_cases h : n = m
    · subst h
      obtain ⟨p1, _⟩ := hm.1 n
      refine ⟨?_, ?_⟩
      · simp only [setHeld, if_true]; rw [List.count_cons_of_ne (by simp)]; exact p1
      · simp [innermost, setHeld]
    · have := hm.1 n
      have hmem : (n, true) ∈ s.objs.set i (m, false) ↔ (n, true) ∈ s.objs := by
        rw [List.mem_iff_getElem?, List.mem_iff_getElem?]
        exact exists_congr (fun j => keep n h j)
      simp only [setHeld, h, if_false, innermost_cons_ne (Ne.symm h), count_cons_ne (Ne.symm h), hmem] at this ⊢
      exact this
  · by_cases h : n = m
    · subst h; simp [innermost] at hx
    · rw [innermost_cons_ne (Ne.symm h)] at hx
      intro j hj
      exact hm.2 n hx j ((keep n h j).mp hj)

/-! ## Scopes of unique_locks -/

theorem inv_push {U} {s : St} {m} (hi : Inv U s) (hu : U m = true) (hn : NotOwned s m) :
    Inv U { setHeld s m { s.held m with excl := true } with objs := (m, true) :: s.objs } := by
  refine ⟨fun i e he => ?_, fun i n he => ?_, fun i j n h1 h2 => ?_⟩
  · cases i with
    | zero => simp at he; subst he; exact hu
    | succ i => exact hi.dom i e (by simpa using he)
  · by_cases h : n = m
    · simp [setHeld, h]
    · simp only [setHeld, h, if_false]
      cases i with
      | zero => simp at he; exact absurd he.symm h
      | succ i => exact hi.own i n (by simpa using he)
  · cases i with
    | zero =>
      cases j with
      | zero => rfl
      | succ j => simp at h1 h2; subst h1; exact absurd h2 (hn j)
    | succ i =>
      cases j with
      | zero => simp at h1 h2; subst h2; exact absurd h1 (hn i)
      | succ j => simp at h1 h2; rw [hi.uniq i j n h1 h2]

/-- A block in which a new lock object has acquired `m`: afterwards the mutex is locked iff the object still owns it. -/
theorem Rel.pop {s s₂ : St} {m : Nat} (hn : NotOwned s m) (hx : (s.held m).excl = false)
    (hr : Rel { setHeld s m { s.held m with excl := true } with objs := (m, true) :: s.objs } s₂) :
    ∃ b rest, s₂.objs = (m, b) :: rest ∧ s₂.held m = { s.held m with excl := b } ∧ Rel s { (setHeld s₂ m (s.held m)) with objs := rest } := by
  have hlen := hr.len
  have hobj := hr.obj
  have hheld := hr.held
  simp only [List.length_cons] at hlen
  have lostm : Lost { setHeld s m { s.held m with excl := true } with objs := (m, true) :: s.objs } s₂ m ↔ s₂.objs[0]? = some (m, false) := by
    constructor
    · rintro ⟨i, h1, h2⟩
      cases i with
      | zero => exact h2
      | succ i => simp at h1; exact absurd h1 (hn i)
    · intro h; exact ⟨0, by simp, h⟩
  have h0 := hobj 0
  simp only [List.getElem?_cons_zero] at h0
  cases ho : s₂.objs with
  | nil => rw [ho] at hlen; simp at hlen
  | cons e rest =>
    rw [ho] at h0 hlen
    simp only [List.getElem?_cons_zero, Option.some.injEq] at h0
    simp only [List.length_cons, Nat.add_right_cancel_iff] at hlen
    obtain ⟨n, b⟩ := e
    have hnm : n = m := by rcases h0 with h0 | ⟨k, h1, h2⟩ <;> simp_all
    subst hnm
    refine ⟨b, rest, rfl, ?_, hlen, fun i => ?_, fun k => ?_⟩
    · have := hheld n
      rw [lostm, ho] at this
      rcases this with ⟨a, c⟩ | ⟨a, c⟩
      · have : b = true := by cases b <;> simp_all
        subst this; rw [c]; simp [setHeld]
      · simp at a; subst a; rw [c]; simp [setHeld]
    · have := hobj (i + 1)
      rw [ho] at this
      simpa using this
    · by_cases hk : k = n
      · subst hk; exact .inl ⟨not_lost hn, by simp [setHeld]⟩
      · have := hheld k
        have hl : Lost { setHeld s n { s.held n with excl := true } with objs := (n, true) :: s.objs } s₂ k ↔
            Lost s { (setHeld s₂ n (s.held n)) with objs := rest } k := by
          constructor
          · rintro ⟨i, h1, h2⟩
            cases i with
            | zero => simp at h1; exact absurd h1.symm hk
            | succ i => rw [ho] at h2; exact ⟨i, by simpa using h1, by simpa using h2⟩
          · rintro ⟨i, h1, h2⟩; exact ⟨i + 1, by simpa using h1, by rw [ho]; simpa using h2⟩
        rw [hl] at this
        simp only [setHeld, hk, if_false] at this ⊢
        exact this

theorem inv_unlockObj {U} {s : St} {m i} (hi : Inv U s) (ho : s.objs[i]? = some (m, true)) :
    Inv U { setHeld s m { s.held m with excl := false } with objs := s.objs.set i (m, false) } := by
  refine ⟨fun j e he => ?_, fun j n he => ?_, fun j k n h1 h2 => ?_⟩
  · simp only [get_set_objs ho] at he
    split at he
    · cases he; exact (hi.dom i _ ho : U m = true)
    · exact hi.dom j e he
  · simp only [get_set_objs ho] at he
    split at he
    · cases he
    · next hne =>
      have hnm : n ≠ m := by rintro rfl; exact hne (hi.uniq i j n ho he)
      simp only [setHeld, hnm, if_false]; exact hi.own j n he
  · simp only [get_set_objs ho] at h1 h2
    split at h1
    · cases h1
    · split at h2
      · cases h2
      · exact hi.uniq j k n h1 h2

/-- A block in which a lock object has given up `m` for the time being. -/
theorem Rel.unlockObj {U} {s s₂ : St} {m i : Nat} (hi : Inv U s) (ho : s.objs[i]? = some (m, true))
    (hr : Rel { setHeld s m { s.held m with excl := false } with objs := s.objs.set i (m, false) } s₂) :
    s₂.objs[i]? = some (m, false) ∧ s₂.held m = { s.held m with excl := false } ∧ Rel s s₂ ∧
      Rel s { setHeld s₂ m { s.held m with excl := true } with objs := s₂.objs.set i (m, true) } := by
  have hn : NotOwned { setHeld s m { s.held m with excl := false } with objs := s.objs.set i (m, false) } m := by
    intro j hj
    simp only [get_set_objs ho] at hj
    split at hj
    · cases hj
    · next hne => exact hne (hi.uniq i j m ho hj)
  have h2 : s₂.objs[i]? = some (m, false) := hr.false_of_false (by simp only [get_set_objs ho]; simp)
  have hheld : s₂.held m = { s.held m with excl := false } := by rw [hr.held_eq hn]; simp [setHeld]
  have hlen := hr.len
  simp only [List.length_set] at hlen
  have lost : ∀ n, n ≠ m → (Lost { setHeld s m { s.held m with excl := false } with objs := s.objs.set i (m, false) } s₂ n ↔ Lost s s₂ n) := by
    intro n hnm
    refine exists_congr fun j => ?_
    simp only [get_set_objs ho]
    split
    · next h => subst h; rw [ho]; simp [Ne.symm hnm]
    · rfl
  have hobj : ∀ j : Nat, j ≠ i → (s₂.objs[j]? = s.objs[j]? ∨ ∃ n, s.objs[j]? = some (n, true) ∧ s₂.objs[j]? = some (n, false)) := by
    intro j hj
    have := hr.obj j
    simp only [get_set_objs ho, if_neg (Ne.symm hj)] at this
    exact this
  refine ⟨h2, hheld, ⟨hlen, fun j => ?_, fun n => ?_⟩, by simpa using hlen, fun j => ?_, fun n => ?_⟩
  · by_cases hj : j = i
    · subst hj; exact .inr ⟨m, ho, h2⟩
    · exact hobj j hj
  · by_cases hnm : n = m
    · subst hnm; exact .inr ⟨⟨i, ho, h2⟩, hheld⟩
    · have := hr.held n
      rw [lost n hnm] at this
      simp only [setHeld, hnm, if_false] at this
      exact this
  · by_cases hj : j = i
    · subst hj; simp only [get_set_objs h2]; simp [ho]
    · simp only [get_set_objs h2, if_neg (Ne.symm hj)]; exact hobj j hj
  · by_cases hnm : n = m
    · subst hnm
      refine .inl ⟨?_, ?_⟩
      · rintro ⟨j, h3, h4⟩
        have := hi.uniq i j n ho h3; subst this
        simp only [get_set_objs h2] at h4; simp at h4
      · simp only [setHeld, if_true]; rw [← hi.own i n ho]
    · have := hr.held n
      rw [lost n hnm] at this
      have hl : Lost s { setHeld s₂ m { s.held m with excl := true } with objs := s₂.objs.set i (m, true) } n ↔ Lost s s₂ n := by
        refine exists_congr fun j => ?_
        simp only [get_set_objs h2]
        split
        · next h => subst h; rw [ho]; simp [Ne.symm hnm]
        · rfl
      rw [hl]
      simp only [setHeld, hnm, if_false] at this ⊢
      exact this

/-! ## Execution -/

def ResOk (s : St) : Res → Prop
  | .ok s' | .exc s' => Rel s s'
  | .ub => False
  | _ => True

theorem resOk_leave {s u s'} (h : Rel s s') : ResOk s (leave u s') := by unfold leave; cases u <;> exact h

theorem resOk_throw {s u s'} (h : Rel s s') : ResOk s (throwFromDtor u s') := by
  unfold throwFromDtor; cases u
  · exact h
  · trivial

theorem resOk_after {s₁ s : St} {r : Res} {d : Bool → St → Res} (hr : ResOk s₁ r) (hd : ∀ u s', Rel s₁ s' → ResOk s (d u s')) :
    ResOk s (afterBody r d) := by
  cases r with
  | ok s' => exact hd _ _ hr
  | exc s' => exact hd _ _ hr
  | stuck => trivial
  | misuse => trivial
  | ub => exact hr
  | terminate => trivial

theorem lockM_got {m f s s₁} (h : lockM m f s = .got s₁) :
    f = false ∧ (s.held m).excl = false ∧ s₁ = setHeld s m { s.held m with excl := true } := by
  unfold lockM at h
  split at h
  · cases h
  · next hf =>
    split at h
    · cases h
    · next hx => cases h; simp at hf hx; exact ⟨hf, hx.1, rfl⟩

theorem run_ok {U : Nat → Bool} {h₀ : Nat → Held} (p : Prog) : ∀ {ctx s}, Regular U p → Inv U s → Match h₀ ctx s →
    (∀ e ∈ (run p ctx s).1, Promised h₀ e) ∧ ResOk s (run p ctx s).2 := by
  induction p with
  | skip => intro ctx s _ _ _; exact ⟨by simp [run], Rel.refl s⟩
  | probe => intro ctx s _ _ hm; exact ⟨by simp [run]; exact hm.1, Rel.refl s⟩
  | throw_ => intro ctx s _ _ _; exact ⟨by simp [run], Rel.refl s⟩
  | seq p q ihp ihq =>
    intro ctx s hreg hi hm
    obtain ⟨a, b⟩ := ihp hreg.1 hi hm
    simp only [run]
    split
    · next es s' hrun =>
      rw [hrun] at a b
      obtain ⟨c, d⟩ := ihq hreg.2 (hi.rel b) (hm.rel hi b)
      refine ⟨fun e he => ?_, ?_⟩
      · rw [List.mem_append] at he; exact he.elim (a e) (c e)
      · cases hq : (run q ctx s').2 <;> rw [hq] at d <;> first | trivial | exact Rel.trans b d | exact d
    · exact ⟨a, b⟩
  | tryCatch p q ihp ihq =>
    intro ctx s hreg hi hm
    obtain ⟨a, b⟩ := ihp hreg.1 hi hm
    simp only [run]
    split
    · next es s' hrun =>
      rw [hrun] at a b
      obtain ⟨c, d⟩ := ihq hreg.2 (hi.rel b) (hm.rel hi b)
      refine ⟨fun e he => ?_, ?_⟩
      · rw [List.mem_append] at he; exact he.elim (a e) (c e)
      · cases hq : (run q ctx s').2 <;> rw [hq] at d <;> first | trivial | exact Rel.trans b d | exact d
    · exact ⟨a, b⟩
  | lockGuard m ad f body ih =>
    intro ctx s hreg hi hm
    simp only [run]
    split
    · exact ⟨by simp, Rel.refl s⟩
    · exact ⟨by simp, trivial⟩
    · next s₁ hl =>
      obtain ⟨_, hx, rfl⟩ := lockM_got hl
      have hn := hi.notOwned hx
      obtain ⟨a, b⟩ := ih hreg (hi.setHeld hn _) (match_locked hm hn)
      refine ⟨a, resOk_after b fun u s' h => ?_⟩
      obtain ⟨h1, h2⟩ := Rel.through hn h
      simp only [lockGuardDtor, unlockM, h1, if_true]
      have : ({ s.held m with excl := false } : Held) = s.held m := by rw [← hx]
      rw [this]; exact resOk_leave h2
  | sharedGuard m ad f body ih =>
    intro ctx s hreg hi hm
    simp only [run]
    split
    · exact ⟨by simp, Rel.refl s⟩
    · exact ⟨by simp, trivial⟩
    · next s₁ hl =>
      unfold lockSharedM at hl
      split at hl
      · cases hl
      · split at hl
        · cases hl
        · next hx =>
          cases hl
          have hn := hi.notOwned (m := m) (by simpa using hx)
          obtain ⟨a, b⟩ := ih hreg (hi.setHeld hn _) (match_shared hm)
          refine ⟨a, resOk_after b fun u s' h => ?_⟩
          obtain ⟨h1, h2⟩ := Rel.through hn h
          simp only [sharedGuardDtor, unlockSharedM, h1]
          simp only [Nat.succ_ne_zero, if_false, Nat.add_sub_cancel]
          exact resOk_leave h2
  | unlockGuard m f body ih =>
    intro ctx s hreg hi hm
    obtain ⟨rfl, hu, hreg⟩ := hreg
    simp only [run]
    split
    · exact ⟨by simp, trivial⟩
    · next s₁ hl =>
      unfold unlockM at hl
      split at hl
      · next hx =>
        cases hl
        have hn : NotOwned s m := by
          intro i h; have := hi.dom i _ h; simp only at this; rw [hu] at this; cases this
        obtain ⟨a, b⟩ := ih hreg (hi.setHeld hn _) (match_unlocked hm)
        refine ⟨a, resOk_after b fun u s' h => ?_⟩
        obtain ⟨h1, h2⟩ := Rel.through hn h
        simp only [unlockGuardDtor, lockM, h1, Bool.false_eq_true, if_false, Bool.false_or]
        split
        · next h3 => split at h3 <;> cases h3; exact resOk_leave (by rw [show ({ s.held m with excl := true } : Held) = s.held m from by rw [← hx]]; exact h2)
        · next h3 => split at h3 <;> cases h3
        · trivial
      · cases hl
  | uniqueLock m f body ih =>
    intro ctx s hreg hi hm
    obtain ⟨hu, hreg⟩ := hreg
    simp only [run]
    split
    · exact ⟨by simp, Rel.refl s⟩
    · exact ⟨by simp, trivial⟩
    · next s₁ hl =>
      obtain ⟨_, hx, rfl⟩ := lockM_got hl
      have hn := hi.notOwned hx
      obtain ⟨a, b⟩ := ih hreg (inv_push hi hu hn) (match_push hm)
      refine ⟨a, resOk_after b fun u s' h => ?_⟩
      obtain ⟨b, rest, h1, h2, h3⟩ := Rel.pop hn hx h
      have hh : ({ s.held m with excl := false } : Held) = s.held m := by rw [← hx]
      cases b with
      | true =>
        simp only [uniqueDtor, h1, unlockM, h2, if_true]
        rw [hh]; exact resOk_leave h3
      | false =>
        simp only [uniqueDtor, h1]
        refine resOk_leave ?_
        have : ({ setHeld s' m (s.held m) with objs := rest } : St) = { s' with objs := rest } := by
          simp only [setHeld, St.mk.injEq, and_true]
          funext n
          split
          · next e => subst e; rw [h2, hh]
          · rfl
        rw [← this]; exact h3
  | unlockLock i f body ih =>
    intro ctx s hreg hi hm
    simp only [run]
    split
    · exact ⟨by simp, trivial⟩
    · exact ⟨by simp, trivial⟩
    · next m ho =>
      have hx := hi.own i m ho
      simp only [unlockM, hx, if_true]
      obtain ⟨a, b⟩ := ih hreg (inv_unlockObj hi ho) (match_unlockObj hm ho)
      refine ⟨a, resOk_after b fun u s' h => ?_⟩
      obtain ⟨h1, h2, h3, h4⟩ := Rel.unlockObj hi ho h
      simp only [unlockLockDtor, h1]
      split
      · next s₃ hl =>
        obtain ⟨_, _, rfl⟩ := lockM_got hl
        refine resOk_leave ?_
        rw [h2]; exact h4
      · exact resOk_throw h3
      · trivial

end Verif.Guards
