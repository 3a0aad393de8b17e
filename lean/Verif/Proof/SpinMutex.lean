import Verif.Base.Count
import Verif.Spec.SpinMutex

/-! Invariants of `spin_mutex`. -/

namespace Verif.Spin

structure Inv (tr : List Ev) (s : St) : Prop where
  /-- exactly one of: word free, one owner -/
  excl : b2n s.word.val + s.ths.countP Th.owns = 1
  /-- a thread's own work is in its view -/
  works : ∀ e ∈ tr, ∀ j id, workOf e = some (j, id) → ∃ th, s.ths[j]? = some th ∧ id ∈ th.view
  pubFree : s.word.val = true → ∀ id, Published relOf workOf tr id → id ∈ s.word.msg
  pubOwner : ∀ (i : Nat) (th : Th), s.ths[i]? = some th → th.owns = true → ∀ id, Published relOf workOf tr id → id ∈ th.view

theorem countP_replicate_idle (n : Nat) (v : View) :
    (List.replicate n (Th.mk .idle v)).countP Th.owns = 0 := by
  apply countP_eq_zero_of_forall
  intro i a h
  rw [List.getElem?_replicate] at h
  split at h
  · cases h; rfl
  · cases h

theorem inv_init (n : Nat) : Inv [] (init n) where
  excl := by simp [init, countP_replicate_idle]
  works := by simp
  pubFree := fun _ _ h => absurd h not_published_nil
  pubOwner := fun _ _ _ _ _ h => absurd h not_published_nil

/-- Only the owner exists when somebody owns. -/
theorem Inv.unique {tr : List Ev} {s : St} (I : Inv tr s) {i j : Nat} {a b : Th} (hi : s.ths[i]? = some a)
    (hj : s.ths[j]? = some b) (ha : a.owns = true) (hb : b.owns = true) : i = j := by
  by_cases h : i = j
  · exact h
  · have h2 := countP_two (p := Th.owns) h hi hj ha hb
    have := I.excl
    omega

theorem Inv.not_free {tr : List Ev} {s : St} (I : Inv tr s) {i : Nat} {a : Th} (hi : s.ths[i]? = some a)
    (ha : a.owns = true) : s.word.val = false := by
  have := countP_pos_of_get (p := Th.owns) hi ha
  have h := I.excl
  cases hv : s.word.val with
  | false => rfl
  | true => rw [hv] at h; simp only [b2n_true] at h; omega

theorem works_mono {tr : List Ev} {s : St} {t : Nat} {th th' : Th}
    (hth : s.ths[t]? = some th) (hsub : ∀ id, id ∈ th.view → id ∈ th'.view)
    (hw : ∀ e ∈ tr, ∀ j id, workOf e = some (j, id) → ∃ th, s.ths[j]? = some th ∧ id ∈ th.view) :
    ∀ e ∈ tr, ∀ j id, workOf e = some (j, id) → ∃ th, (s.ths.set t th')[j]? = some th ∧ id ∈ th.view := by
  intro e he j id hj
  obtain ⟨x, hx, hid⟩ := hw e he j id hj
  by_cases h : t = j
  · subst h
    rw [hth] at hx; cases hx
    exact ⟨th', get_set_self hth, hsub id hid⟩
  · exact ⟨x, by rw [get_set_ne h]; exact hx, hid⟩

/-- A step of a thread that touches neither the word nor ownership. -/
theorem inv_local {tr : List Ev} {s : St} {t : Nat} {th th' : Th} {k : Nat} (I : Inv tr s) (hth : s.ths[t]? = some th)
    (hown : th'.owns = th.owns) (hsub : ∀ id, id ∈ th.view → id ∈ th'.view) :
    Inv tr { s with ths := s.ths.set t th', fresh := k } where
  excl := by
    have := countP_set (p := Th.owns) (b := th') hth
    have h := I.excl
    rw [hown] at this
    show b2n s.word.val + (s.ths.set t th').countP Th.owns = 1
    omega
  works := works_mono hth hsub I.works
  pubFree := I.pubFree
  pubOwner := by
    intro i x hx ho id hp
    rcases get_set_cases hx with ⟨rfl, rfl⟩ | ⟨_, hx⟩
    · exact hsub id (I.pubOwner _ _ hth (by rw [← hown]; exact ho) id hp)
    · exact I.pubOwner _ _ hx ho id hp

/-- Appending an event that is not a release and whose work is recorded. -/
theorem inv_emit {tr : List Ev} {s : St} {e : Ev} (I : Inv tr s) (hr : relOf e = none)
    (hw : ∀ j id, workOf e = some (j, id) → ∃ th, s.ths[j]? = some th ∧ id ∈ th.view) : Inv (tr ++ [e]) s where
  excl := I.excl
  works := by
    intro e' he'
    rcases List.mem_append.mp he' with h | h
    · exact I.works e' h
    · simp only [List.mem_singleton] at h; subst h; exact hw
  pubFree := by
    intro hv id hp
    rcases published_snoc hp with h | ⟨j, w, h1, _⟩
    · exact I.pubFree hv id h
    · rw [hr] at h1; cases h1
  pubOwner := by
    intro i x hx ho id hp
    rcases published_snoc hp with h | ⟨j, w, h1, _⟩
    · exact I.pubOwner i x hx ho id h
    · rw [hr] at h1; cases h1

/-- Exchange finding the mutex free. -/
theorem inv_acquire {tr : List Ev} {s : St} {t : Nat} {th : Th} (I : Inv tr s) (hth : s.ths[t]? = some th)
    (hown : th.owns = false) (hv : s.word.val = true) :
    Inv tr { s with word := (s.word.rmw xchgOrder th.view false).1,
                    ths := s.ths.set t ⟨.owner, (s.word.rmw xchgOrder th.view false).2⟩ } where
  excl := by
    have := countP_set (p := Th.owns) (b := ⟨.owner, (s.word.rmw xchgOrder th.view false).2⟩) hth
    have h := I.excl
    rw [hown] at this
    rw [hv] at h
    have ho : (Th.mk .owner (s.word.rmw xchgOrder th.view false).2).owns = true := rfl
    rw [ho] at this
    simp only [b2n_true, b2n_false] at this h
    show b2n false + _ = 1
    simp only [b2n_false]
    omega
  works := works_mono hth (by intro id hid; simp [Loc.rmw, xchgOrder, Order.isAcquire, hid]) I.works
  pubFree := by intro h; exact absurd h (by simp [Loc.rmw])
  pubOwner := by
    intro i x hx ho id hp
    have hmsg := I.pubFree hv id hp
    rcases get_set_cases hx with ⟨rfl, rfl⟩ | ⟨_, hx⟩
    · simp [Loc.rmw, xchgOrder, Order.isAcquire, hmsg]
    · have := I.not_free hx ho
      rw [hv] at this; cases this

/-- Exchange finding the mutex owned: nothing but the thread's view changes. -/
theorem inv_fail {tr : List Ev} {s : St} {t : Nat} {th : Th} {pc : PC} (I : Inv tr s) (hth : s.ths[t]? = some th)
    (hown : th.owns = false) (hpc : ∀ v, (Th.mk pc v).owns = false) (hv : s.word.val = false) :
    Inv tr { s with word := (s.word.rmw xchgOrder th.view false).1,
                    ths := s.ths.set t ⟨pc, (s.word.rmw xchgOrder th.view false).2⟩ } where
  excl := by
    have := countP_set (p := Th.owns) (b := ⟨pc, (s.word.rmw xchgOrder th.view false).2⟩) hth
    have h := I.excl
    rw [hown, hpc] at this
    rw [hv] at h
    simp only [b2n_false] at this h
    show b2n false + _ = 1
    simp only [b2n_false]
    omega
  works := works_mono hth (by intro id hid; simp [Loc.rmw, xchgOrder, Order.isAcquire, hid]) I.works
  pubFree := by intro h; exact absurd h (by simp [Loc.rmw])
  pubOwner := by
    intro i x hx ho id hp
    rcases get_set_cases hx with ⟨rfl, rfl⟩ | ⟨_, hx⟩
    · rw [hpc] at ho; cases ho
    · exact I.pubOwner _ _ hx ho id hp

theorem inv_release {tr : List Ev} {s : St} {t : Nat} {th : Th} (I : Inv tr s) (hth : s.ths[t]? = some th)
    (hown : th.owns = true) :
    Inv (tr ++ [.unlocked t]) { s with word := s.word.store unlockOrder th.view true,
                                       ths := s.ths.set t { th with pc := .idle } } where
  excl := by
    have hc := countP_set (p := Th.owns) (b := { th with pc := .idle }) hth
    have hf := I.not_free hth hown
    have h := I.excl
    rw [hown] at hc
    rw [hf] at h
    have ho : (Th.mk .idle th.view).owns = false := rfl
    rw [ho] at hc
    simp only [b2n_true, b2n_false] at hc h
    show b2n true + _ = 1
    simp only [b2n_true]
    omega
  works := by
    intro e he j id hj
    rcases List.mem_append.mp he with h | h
    · exact works_mono (th' := { th with pc := .idle }) hth (fun _ h => h) I.works e h j id hj
    · simp only [List.mem_singleton] at h; subst h; simp [workOf] at hj
  pubFree := by
    intro _ id hp
    show id ∈ (if unlockOrder.isRelease = true then th.view else [])
    simp only [unlockOrder, Order.isRelease, if_true]
    rcases published_snoc hp with h | ⟨j, w, h1, h2, h3⟩
    · exact I.pubOwner _ _ hth hown id h
    · simp only [relOf, Option.some.injEq] at h1
      subst h1
      obtain ⟨x, hx, hid⟩ := I.works w h2 _ _ h3
      rw [hth] at hx; cases hx; exact hid
  pubOwner := by
    intro i x hx ho id _
    rcases get_set_cases hx with ⟨rfl, rfl⟩ | ⟨hne, hx⟩
    · cases ho
    · exact absurd (I.unique hth hx hown ho) hne

theorem inv_step (v : Variant) (tr : List Ev) (s : St) (l : Nat × Act) (s' : St) (es : List Ev)
    (I : Inv tr s) (h : step v s l = some (s', es)) : Inv (tr ++ es) s' := by
  obtain ⟨t, a⟩ := l
  unfold step at h
  simp only at h
  split at h
  · cases h
  next th hth =>
  obtain ⟨pc, view⟩ := th
  simp only at h
  split at h
  · cases h
    simp only [List.append_nil]
    exact inv_local I hth (by cases v <;> rfl) (fun _ h => h)
  · cases h
    simp only [List.append_nil]
    exact inv_local I hth rfl (fun _ h => h)
  · cases h
    refine inv_emit (inv_local (k := s.fresh + 1) I hth rfl (fun _ h => List.mem_cons_of_mem _ h)) rfl ?_
    intro j id hj
    simp only [workOf, Option.some.injEq, Prod.mk.injEq] at hj
    obtain ⟨rfl, rfl⟩ := hj
    exact ⟨_, get_set_self hth, List.mem_cons_self⟩
  · cases h
    refine inv_emit (inv_local (k := s.fresh + 1) I hth rfl (fun _ h => List.mem_cons_of_mem _ h)) rfl ?_
    intro j id hj
    simp only [workOf, Option.some.injEq, Prod.mk.injEq] at hj
    obtain ⟨rfl, rfl⟩ := hj
    exact ⟨_, get_set_self hth, List.mem_cons_self⟩
  · cases h
    simp only [List.append_nil]
    refine inv_local I hth ?_ (fun _ h => h)
    split <;> rfl
  · split at h
    · next hv =>
      cases h
      exact inv_emit (inv_acquire I hth rfl hv) rfl (by simp [workOf])
    · next hv =>
      cases h
      simp only [List.append_nil]
      exact inv_fail I hth rfl (by intro w; cases v <;> rfl) (by simpa using hv)
  · split at h
    · next hv =>
      cases h
      exact inv_emit (inv_acquire I hth rfl hv) rfl (by simp [workOf])
    · next hv =>
      cases h
      exact inv_emit (inv_fail I hth rfl (by intro w; rfl) (by simpa using hv)) rfl (by simp [workOf])
  · cases h
    simp only [List.append_nil]
    exact inv_local I hth rfl (fun _ h => h)
  · cases h
    exact inv_release I hth rfl
  · cases h

theorem inv_exec {v : Variant} {n : Nat} {tr : List Ev} {s : St} (h : Exec (step v) (init n) tr s) : Inv tr s :=
  Exec.invariant Inv (inv_init n) (inv_step v) h

end Verif.Spin

namespace Verif.Spin

theorem holds_append (tr es : List Ev) (t : Nat) : holds (tr ++ es) t = es.foldl (holdsUpd t) (holds tr t) := by
  simp [holds, List.foldl_append]

/-- The specification agrees with the program counters. -/
def Agree (tr : List Ev) (s : St) : Prop :=
  ∀ t, holds tr t = (match s.ths[t]? with | some th => th.owns | none => false)

theorem agree_init (n : Nat) : Agree [] (init n) := by
  intro t
  simp only [holds, init, List.foldl_nil, List.getElem?_replicate]
  split
  · next h => split at h <;> cases h; rfl
  · rfl

theorem agree_move {tr es : List Ev} {s : St} {w : Loc Bool} {k : Nat} {t : Nat} {th th' : Th}
    (A : Agree tr s) (hth : s.ths[t]? = some th)
    (hself : es.foldl (holdsUpd t) th.owns = th'.owns)
    (hother : ∀ u b, u ≠ t → es.foldl (holdsUpd u) b = b) :
    Agree (tr ++ es) { word := w, ths := s.ths.set t th', fresh := k } := by
  intro u
  rw [holds_append, A u]
  by_cases h : t = u
  · subst h
    simp only [get_set_self hth, hth, hself]
  · simp only [get_set_ne h, hother u _ (Ne.symm h)]

theorem agree_step (v : Variant) (tr : List Ev) (s : St) (l : Nat × Act) (s' : St) (es : List Ev)
    (A : Agree tr s) (h : step v s l = some (s', es)) : Agree (tr ++ es) s' := by
  obtain ⟨t, a⟩ := l
  unfold step at h
  simp only at h
  split at h
  · cases h
  next th hth =>
  obtain ⟨pc, view⟩ := th
  simp only at h
  have hne : ∀ u : Nat, u ≠ t → ¬ t = u := fun u hu => Ne.symm hu
  split at h
  · cases h
    exact agree_move A hth (by cases v <;> rfl) (fun _ _ _ => rfl)
  · cases h
    exact agree_move A hth rfl (fun _ _ _ => rfl)
  · cases h
    exact agree_move A hth rfl (fun _ _ _ => rfl)
  · cases h
    exact agree_move A hth rfl (fun _ _ _ => rfl)
  · next loaded =>
    cases h
    exact agree_move A hth (by cases loaded <;> rfl) (fun _ _ _ => rfl)
  · split at h
    · cases h
      exact agree_move A hth (by simp [holdsUpd, Th.owns]) (fun u b hu => by simp [holdsUpd, hne u hu])
    · cases h
      exact agree_move A hth (by cases v <;> rfl) (fun _ _ _ => rfl)
  · split at h
    · cases h
      exact agree_move A hth (by simp [holdsUpd, Th.owns]) (fun u b hu => by simp [holdsUpd, hne u hu])
    · cases h
      exact agree_move A hth (by simp [holdsUpd, Th.owns]) (fun u b hu => by simp [holdsUpd, hne u hu])
  · cases h
    exact agree_move A hth rfl (fun _ _ _ => rfl)
  · cases h
    exact agree_move A hth (by simp [holdsUpd, Th.owns]) (fun u b hu => by simp [holdsUpd, hne u hu])
  · cases h

theorem agree_exec {v : Variant} {n : Nat} {tr : List Ev} {s : St} (h : Exec (step v) (init n) tr s) : Agree tr s :=
  Exec.invariant Agree (agree_init n) (agree_step v) h

end Verif.Spin
