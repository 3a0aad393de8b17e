import Verif.Proof.Locks

/-! # C53-C56: lock objects -/

namespace Verif.Locks

/-! ## C53, C55: ownership over every history -/

/-- The acquisitions of a mutex less its releases, plus the ownerships handed in by the user less those handed out, are the
live lock objects reporting ownership; for unique ownership … -/
theorem C53_accounting {tr : List Ev} {s : St} (h : Exec step [] tr s) (m : Nat) :
    total (mutexNet .unique m) tr + total (userNet .unique m) tr = owners .unique m s := (inv_exec h).2.2 .unique m

/-- … and for shared and upgrade ownership. -/
theorem C55_accounting {tr : List Ev} {s : St} (h : Exec step [] tr s) {k : Kind} (_hk : k ≠ .unique) (m : Nat) :
    total (mutexNet k m) tr + total (userNet k m) tr = owners k m s := (inv_exec h).2.2 k m

theorem mem_of_get {s : St} {i : Nat} {o : Option Lock} (h : s[i]? = some o) : o ∈ s := List.mem_of_getElem? h

/-- An object that reports ownership has a mutex on which an ownership of its kind is outstanding. -/
theorem C53_owner_really_owns {tr : List Ev} {s : St} (h : Exec step [] tr s) {i : Nat} {l : Lock} (hi : s[i]? = some (some l))
    (ho : l.owns = true) : ∃ m, l.mutex = some m ∧ 1 ≤ total (mutexNet l.kind m) tr + total (userNet l.kind m) tr := by
  obtain ⟨h1, _, h3⟩ := inv_exec h
  obtain ⟨m, hm⟩ := Option.ne_none_iff_exists'.mp (h1 i l hi ho)
  refine ⟨m, hm, ?_⟩
  have e := h3 l.kind m
  unfold net at e
  have : 1 ≤ owners l.kind m s := countP_pos_of_get (p := Owns l.kind m) hi (by simp [Owns, hm, ho])
  omega

/-- No ownership is released that is not outstanding. -/
theorem C53_never_negative {tr : List Ev} {s : St} (h : Exec step [] tr s) (k : Kind) (m : Nat) :
    0 ≤ total (mutexNet k m) tr + total (userNet k m) tr := by
  have e := (inv_exec h).2.2 k m
  unfold net at e
  omega

/-- Once all lock objects are destroyed everything acquired has been released or handed out. -/
theorem C53_all_released {tr : List Ev} {s : St} (h : Exec step [] tr s) (hd : ∀ o ∈ s, o = none) (k : Kind) (m : Nat) :
    total (mutexNet k m) tr + total (userNet k m) tr = 0 := by
  have e := (inv_exec h).2.2 k m
  unfold net at e
  have : owners k m s = 0 := by
    unfold owners
    rw [List.countP_eq_zero]
    intro o ho
    rw [hd o ho]
    simp [Owns]
  omega

/-- A mutex is never unlocked through a lock object that does not own it; the object used ceases to own it. -/
theorem C53_released_only_by_owner {tr : List Ev} {s s' : St} {op : Op} {a : Ans} {es : List Ev} (_h : Exec step [] tr s)
    (hs : step s (op, a) = some (s', es)) {k : Kind} {m : Nat} (hr : Ev.released k m ∈ es) :
    ∃ i ∈ op.objects, ∃ l, s[i]? = some (some l) ∧ l = ⟨k, some m, true⟩ ∧
      ((∃ l', s'[i]? = some (some l') ∧ l' ≠ l) ∨ s'[i]? = some none ∨ ∃ j, op = .convertAssign i j) := by
  have destroyed_rel : ∀ l : Lock, Ev.released k m ∈ destroyed l → l = ⟨k, some m, true⟩ := by
    rintro ⟨k', m', o⟩ hm
    unfold destroyed at hm
    split at hm
    · next ho =>
      split at hm
      · simp at hm
      · next m'' hm' => simp only [List.mem_singleton, Ev.released.injEq] at hm; simp at hm' ho; simp [hm, hm', ho]
    · simp at hm
  have conv_no : ∀ {mode k₂} {l : Lock} {r}, convert mode k₂ l a = some r → Ev.released k m ∉ r.2.2 := by
    intro mode k₂ l r hc
    unfold convert at hc
    split at hc <;> split at hc <;> (try split at hc) <;> (try split at hc) <;> cases hc <;> simp
  have onObj_case : ∀ i f, onObj s i f = some (s', es) → (∀ l l' es, f l = some (l', es) → Ev.released k m ∈ es → l = ⟨k, some m, true⟩ ∧ l' ≠ l) →
      ∃ l, s[i]? = some (some l) ∧ l = ⟨k, some m, true⟩ ∧ ∃ l', s'[i]? = some (some l') ∧ l' ≠ l := by
    intro i f hf hl
    unfold onObj at hf
    split at hf
    · next l hi =>
      split at hf
      · cases hf
      · next l' es' hfl =>
        cases hf
        obtain ⟨h1, h2⟩ := hl _ _ _ hfl hr
        exact ⟨l, hi, h1, l', get_set_self hi, h2⟩
    · cases hf
  have try_no : ∀ {l : Lock} {l' es}, doTry l a = some (l', es) → Ev.released k m ∉ es := by
    intro l l' es hl
    unfold doTry at hl
    split at hl <;> (try split at hl) <;> (try split at hl) <;> cases hl <;> simp
  have lock_no : ∀ {l : Lock} {l' es}, doLock l a = some (l', es) → Ev.released k m ∉ es := by
    intro l l' es hl
    unfold doLock at hl
    split at hl <;> (try split at hl) <;> (try split at hl) <;> cases hl <;> simp
  have cons_no : ∀ {r}, constructed s r = some (s', es) → (∀ x, r = some x → Ev.released k m ∉ x.2) → False := by
    intro r hc hn
    unfold constructed at hc
    split at hc
    · cases hc
    · split at hc <;> cases hc <;> exact hn _ rfl hr
  cases op with
  | ctorDefault k => cases hs; simp at hr
  | ctorDefer k m => cases hs; simp at hr
  | ctorAdopt k m => cases hs; simp at hr
  | ctorLock k m => exact (cons_no hs (fun x hx => lock_no hx)).elim
  | ctorTry k m => exact (cons_no hs (fun x hx => try_no hx)).elim
  | ctorTimed k m => exact (cons_no hs (fun x hx => try_no hx)).elim
  | ctorMove j => simp only [step] at hs; split at hs <;> cases hs; simp at hr
  | ctorConvert mode k₂ j =>
    simp only [step] at hs
    split at hs
    · split at hs
      · split at hs <;> cases hs <;> exact absurd hr (conv_no ‹_›)
      · cases hs
    · cases hs
  | destroy i =>
    simp only [step] at hs
    split at hs
    · next l hi => cases hs; exact ⟨i, by simp [Op.objects], l, hi, destroyed_rel l hr, .inr (.inl (get_set_self hi))⟩
    · cases hs
  | lock i => obtain ⟨l, h1, h2, h3⟩ := onObj_case i _ hs (fun _ _ _ hl hm => absurd hm (lock_no hl)); exact ⟨i, by simp [Op.objects], l, h1, h2, .inl h3⟩
  | tryLock i => obtain ⟨l, h1, h2, h3⟩ := onObj_case i _ hs (fun _ _ _ hl hm => absurd hm (try_no hl)); exact ⟨i, by simp [Op.objects], l, h1, h2, .inl h3⟩
  | timedLock i => obtain ⟨l, h1, h2, h3⟩ := onObj_case i _ hs (fun _ _ _ hl hm => absurd hm (try_no hl)); exact ⟨i, by simp [Op.objects], l, h1, h2, .inl h3⟩
  | unlock i =>
    obtain ⟨l, h1, h2, h3⟩ := onObj_case i _ hs (by
      rintro ⟨k', m', o⟩ l' es hl hm
      unfold doUnlock at hl
      split at hl
      · cases hl; simp at hm
      · next m'' hm' =>
        split at hl
        · cases hl; simp at hm
        · next ho =>
          split at hl <;> cases hl
          · simp only [List.mem_singleton, Ev.released.injEq] at hm
            simp at hm' ho
            simp [hm, hm', ho]
          · simp at hm)
    exact ⟨i, by simp [Op.objects], l, h1, h2, .inl h3⟩
  | release i =>
    simp only [step] at hs
    obtain ⟨l, h1, h2, h3⟩ := onObj_case i _ hs (by
      intro l l' es hl hm
      cases hl
      split at hm <;> simp at hm)
    exact ⟨i, by simp [Op.objects], l, h1, h2, .inl h3⟩
  | swap i j => simp only [step, swapObjs] at hs; split at hs <;> (try split at hs) <;> cases hs; simp at hr
  | moveAssign i j => simp only [step, swapObjs] at hs; split at hs <;> (try split at hs) <;> cases hs; simp at hr
  | convertAssign i j =>
    simp only [step] at hs
    split at hs
    · next old l hi hj =>
      split at hs
      · split at hs
        · cases hs
        · next hc => cases hs; exact absurd hr (conv_no hc)
        · next hc =>
          cases hs
          rw [List.mem_append] at hr
          rcases hr with hr | hr
          · exact absurd hr (conv_no hc)
          · exact ⟨i, by simp [Op.objects], old, hi, destroyed_rel old hr, .inr (.inr ⟨j, rfl⟩)⟩
      · cases hs
    · cases hs
  | ownsLock i =>
    simp only [step] at hs
    obtain ⟨l, h1, h2, h3⟩ := onObj_case i _ hs (by intro l l' es hl hm; cases hl; simp at hm)
    exact ⟨i, by simp [Op.objects], l, h1, h2, .inl h3⟩
  | mutex i =>
    simp only [step] at hs
    obtain ⟨l, h1, h2, h3⟩ := onObj_case i _ hs (by intro l l' es hl hm; cases hl; simp at hm)
    exact ⟨i, by simp [Op.objects], l, h1, h2, .inl h3⟩

/-- An assignment from another kind releases what the target owned. -/
example : ∃ tr s s' es, Exec step [] tr s ∧ step s (.convertAssign 0 1, .yes) = some (s', es) ∧ Ev.released .shared 3 ∈ es :=
  ⟨_, _, _, _, exec_of_run (r := (_, _)) (ls := [(.ctorLock .shared 3, .yes), (.ctorLock .unique 4, .yes)]) rfl, rfl, by decide⟩

/-- A null mutex is never dereferenced. -/
theorem C53_no_null_dereference {tr : List Ev} {s : St} (h : Exec step [] tr s) : Ev.ub ∉ tr := (inv_exec h).2.1

/-- Objects not involved in an operation are not changed by it. -/
theorem C53_others_unchanged {s s' : St} {op : Op} {a : Ans} {es : List Ev} (hs : step s (op, a) = some (s', es)) {j : Nat}
    (hj : j ∉ op.objects) (hl : j < s.length) : s'[j]? = s[j]? := by
  have app : ∀ (t : St) o, j < t.length → (t ++ [o])[j]? = t[j]? := fun t o h => List.getElem?_append_left h
  have onObj_case : ∀ i f, onObj s i f = some (s', es) → j ≠ i → s'[j]? = s[j]? := by
    intro i f hf hne
    unfold onObj at hf
    split at hf
    · split at hf
      · cases hf
      · cases hf; exact get_set_ne (Ne.symm hne)
    · cases hf
  have cons_case : ∀ {r}, constructed s r = some (s', es) → s'[j]? = s[j]? := by
    intro r hc
    unfold constructed at hc
    split at hc
    · cases hc
    · split at hc <;> cases hc
      · rfl
      · exact app _ _ hl
  have swap_case : ∀ i i', swapObjs s i i' = some (s', es) → j ≠ i → j ≠ i' → s'[j]? = s[j]? := by
    intro i i' hc h1 h2
    unfold swapObjs at hc
    split at hc <;> (try split at hc) <;> cases hc
    rw [get_set_ne (Ne.symm h2), get_set_ne (Ne.symm h1)]
  cases op <;> simp only [Op.objects, List.mem_cons, List.not_mem_nil, or_false, not_or] at hj
  case ctorDefault => cases hs; exact app _ _ hl
  case ctorDefer => cases hs; exact app _ _ hl
  case ctorAdopt => cases hs; exact app _ _ hl
  case ctorLock => exact cons_case hs
  case ctorTry => exact cons_case hs
  case ctorTimed => exact cons_case hs
  case ctorMove =>
    simp only [step] at hs
    split at hs <;> cases hs
    rw [app _ _ (by simpa using hl), get_set_ne (Ne.symm hj)]
  case ctorConvert =>
    simp only [step] at hs
    split at hs
    · split at hs
      · split at hs <;> cases hs
        · exact get_set_ne (Ne.symm hj)
        · rw [app _ _ (by simpa using hl), get_set_ne (Ne.symm hj)]
      · cases hs
    · cases hs
  case destroy =>
    simp only [step] at hs
    split at hs <;> cases hs
    exact get_set_ne (Ne.symm hj)
  case lock => exact onObj_case _ _ hs hj
  case tryLock => exact onObj_case _ _ hs hj
  case timedLock => exact onObj_case _ _ hs hj
  case unlock => exact onObj_case _ _ hs hj
  case release => simp only [step] at hs; exact onObj_case _ _ hs hj
  case swap => exact swap_case _ _ hs hj.1 hj.2
  case moveAssign => exact swap_case _ _ hs hj.1 hj.2
  case convertAssign =>
    simp only [step] at hs
    split at hs
    · split at hs
      · split at hs <;> cases hs
        · exact get_set_ne (Ne.symm hj.2)
        · rw [get_set_ne (Ne.symm hj.1), get_set_ne (Ne.symm hj.2)]
      · cases hs
    · cases hs
  case ownsLock => simp only [step] at hs; exact onObj_case _ _ hs hj
  case mutex => simp only [step] at hs; exact onObj_case _ _ hs hj

/-- Two unique locks on two mutexes, moved, swapped, released and destroyed. -/
def demo : List (Op × Ans) :=
  [(.ctorLock .unique 1, .yes), (.ctorTry .unique 2, .no), (.tryLock 1, .yes), (.ctorMove 0, .yes), (.swap 1 2, .yes),
   (.release 2, .yes), (.destroy 0, .yes), (.unlock 1, .yes), (.lock 1, .yes), (.destroy 1, .yes), (.destroy 2, .yes)]

example : ∃ tr s, Exec step [] tr s ∧ (∀ o ∈ s, o = none) ∧ total (mutexNet .unique 2) tr = 1 ∧ total (userNet .unique 2) tr = -1 ∧
    total (mutexNet .unique 1) tr = 0 :=
  ⟨_, _, exec_of_run (ls := demo) rfl, by decide, by decide, by decide, by decide⟩

/-- A shared lock is converted to a unique one and back by way of an upgrade lock. -/
def demoConvert : List (Op × Ans) :=
  [(.ctorLock .shared 7, .yes), (.ctorConvert .try_ .unique 0, .no), (.ctorConvert .timed .unique 0, .yes),
   (.ctorConvert .plain .upgrade 2, .yes), (.ctorDefault .shared, .yes), (.convertAssign 4 3, .yes)]

example : ∃ tr s, Exec step [] tr s ∧ owners .shared 7 s = 1 ∧ owners .unique 7 s = 0 ∧ s[4]? = some (some ⟨.shared, some 7, true⟩) :=
  ⟨_, _, exec_of_run (ls := demoConvert) rfl, by decide, by decide, by decide⟩

/-! ## C54: misuse -/

/-- Misuse throws the documented error, whatever the mutex would answer, and changes nothing. -/
theorem C54_misuse_throws {s : St} {i : Nat} {l : Lock} {f : Nat → Op} {e : Err} (hm : Misuse l f e)
    (hi : s[i]? = some (some l)) (a : Ans) : step s (f i, a) = some (s, [.threw e]) := by
  have hset : s.set i (some l) = s := set_self hi
  have nm : ∀ m, l.mutex = some m → l.owns = true → doLock l a = some (l, [.threw .wouldDeadlock]) ∧ doTry l a = some (l, [.threw .wouldDeadlock]) :=
    fun m h1 h2 => ⟨by simp [doLock, h1, h2], by simp [doTry, h1, h2]⟩
  cases hm with
  | lockNoMutex h => simp [step, onObj, hi, doLock, h, hset]
  | tryNoMutex h => simp [step, onObj, hi, doTry, h, hset]
  | timedNoMutex h => simp [step, onObj, hi, doTry, h, hset]
  | unlockNoMutex h => simp [step, onObj, hi, doUnlock, h, hset]
  | lockTwice h1 h2 => simp [step, onObj, hi, (nm _ h1 h2).1, hset]
  | tryTwice h1 h2 => simp [step, onObj, hi, (nm _ h1 h2).2, hset]
  | timedTwice h1 h2 => simp [step, onObj, hi, (nm _ h1 h2).2, hset]
  | unlockNotOwning h =>
    cases hmx : l.mutex <;> simp [step, onObj, hi, doUnlock, h, hmx, hset]

/-- Whenever an operation throws, all lock objects are as before and the mutex has not been changed: nothing but the exception
is in the trace. -/
theorem C54_throw_changes_nothing {tr : List Ev} {s s' : St} {op : Op} {a : Ans} {es : List Ev} {e : Err} (h : Exec step [] tr s)
    (hs : step s (op, a) = some (s', es)) (ht : Ev.threw e ∈ es) : s' = s ∧ es = [.threw e] := by
  have good := (inv_exec h).1
  have lock_t : ∀ {l : Lock} {l' es}, doLock l a = some (l', es) → Ev.threw e ∈ es → l' = l ∧ es = [.threw e] := by
    intro l l' es hl hm
    unfold doLock at hl
    split at hl <;> (try split at hl) <;> (try split at hl) <;> cases hl <;> simp at hm <;> simp [hm]
  have try_t : ∀ {l : Lock} {l' es}, doTry l a = some (l', es) → Ev.threw e ∈ es → l' = l ∧ es = [.threw e] := by
    intro l l' es hl hm
    unfold doTry at hl
    split at hl <;> (try split at hl) <;> (try split at hl) <;> cases hl <;> simp at hm <;> simp [hm]
  have unlock_t : ∀ {l : Lock} {l' es}, doUnlock l a = some (l', es) → Ev.threw e ∈ es → l' = l ∧ es = [.threw e] := by
    intro l l' es hl hm
    unfold doUnlock at hl
    split at hl <;> (try split at hl) <;> (try split at hl) <;> cases hl <;> simp at hm <;> simp [hm]
  have onObj_case : ∀ i f, onObj s i f = some (s', es) → (∀ l l' es, f l = some (l', es) → Ev.threw e ∈ es → l' = l ∧ es = [.threw e]) →
      s' = s ∧ es = [.threw e] := by
    intro i f hf hl
    unfold onObj at hf
    split at hf
    · next l hi =>
      split at hf
      · cases hf
      · next l' es' hfl =>
        cases hf
        obtain ⟨h1, h2⟩ := hl _ _ _ hfl ht
        exact ⟨by rw [h1]; exact set_self hi, h2⟩
    · cases hf
  have cons_case : ∀ {r}, constructed s r = some (s', es) → (∀ l' es, r = some (l', es) → Ev.threw e ∈ es → es = [.threw e]) →
      s' = s ∧ es = [.threw e] := by
    intro r hc hn
    unfold constructed at hc
    split at hc
    · cases hc
    · split at hc
      · cases hc; exact ⟨rfl, hn _ _ rfl ht⟩
      · next hany =>
        cases hc
        exact absurd (List.any_eq_true.mpr ⟨_, ht, rfl⟩) hany
  have conv_case : ∀ {mode k₂} {l : Lock} {n l' es}, Good l → convert mode k₂ l a = some (n, l', es) → Ev.threw e ∈ es →
      n = none ∧ l' = l ∧ es = [.threw e] := by
    intro mode k₂ l n l' es g hc hm
    unfold convert at hc
    split at hc <;> split at hc <;> (try split at hc) <;> (try split at hc) <;> cases hc <;> simp at hm <;> simp [hm]
  have destroyed_no : ∀ l : Lock, Ev.threw e ∉ destroyed l := by
    intro l; unfold destroyed; split <;> (try split) <;> simp
  cases op with
  | ctorDefault k => cases hs; simp at ht
  | ctorDefer k m => cases hs; simp at ht
  | ctorAdopt k m => cases hs; simp at ht
  | ctorLock k m => exact cons_case hs (fun _ _ hl hm => (lock_t hl hm).2)
  | ctorTry k m => exact cons_case hs (fun _ _ hl hm => (try_t hl hm).2)
  | ctorTimed k m => exact cons_case hs (fun _ _ hl hm => (try_t hl hm).2)
  | ctorMove j => simp only [step] at hs; split at hs <;> cases hs; simp at ht
  | ctorConvert mode k₂ j =>
    simp only [step] at hs
    split at hs
    · next l hj =>
      split at hs
      · split at hs
        · cases hs
        · next hc =>
          cases hs
          obtain ⟨_, h2, h3⟩ := conv_case (good j l hj) hc ht
          exact ⟨by rw [h2]; exact set_self hj, h3⟩
        · next hc =>
          cases hs
          obtain ⟨h1, _⟩ := conv_case (good j l hj) hc ht
          cases h1
      · cases hs
    · cases hs
  | destroy i =>
    simp only [step] at hs
    split at hs <;> cases hs
    exact absurd ht (destroyed_no _)
  | lock i => exact onObj_case i _ hs (fun _ _ _ => lock_t)
  | tryLock i => exact onObj_case i _ hs (fun _ _ _ => try_t)
  | timedLock i => exact onObj_case i _ hs (fun _ _ _ => try_t)
  | unlock i => exact onObj_case i _ hs (fun _ _ _ => unlock_t)
  | release i =>
    simp only [step] at hs
    refine onObj_case i _ hs ?_
    intro l l' es hl hm
    cases hl
    split at hm <;> simp at hm
  | swap i j => simp only [step, swapObjs] at hs; split at hs <;> (try split at hs) <;> cases hs; simp at ht
  | moveAssign i j => simp only [step, swapObjs] at hs; split at hs <;> (try split at hs) <;> cases hs; simp at ht
  | convertAssign i j =>
    simp only [step] at hs
    split at hs
    · next old l hi hj =>
      split at hs
      · split at hs
        · cases hs
        · next hc =>
          cases hs
          obtain ⟨_, h2, h3⟩ := conv_case (good j l hj) hc ht
          exact ⟨by rw [h2]; exact set_self hj, h3⟩
        · next hc =>
          cases hs
          rw [List.mem_append] at ht
          rcases ht with ht | ht
          · obtain ⟨h1, _⟩ := conv_case (good j l hj) hc ht
            cases h1
          · exact absurd ht (destroyed_no _)
      · cases hs
    · cases hs
  | ownsLock i =>
    simp only [step] at hs
    exact onObj_case i _ hs (by intro l l' es hl hm; cases hl; simp at hm)
  | mutex i =>
    simp only [step] at hs
    exact onObj_case i _ hs (by intro l l' es hl hm; cases hl; simp at hm)

/-- A mutex that throws while it is locked by an object in use. -/
example : ∃ tr s s' es, Exec step [] tr s ∧ step s (.lock 1, .throws) = some (s', es) ∧ Ev.threw .fromMutex ∈ es :=
  ⟨_, _, _, _, exec_of_run (r := (_, _)) (ls := [(.ctorLock .shared 3, .yes), (.ctorDefer .unique 4, .yes)]) rfl, rfl, by decide⟩

/-- The two documented errors are thrown only upon misuse. -/
theorem C54_error_means_misuse {s s' : St} {op : Op} {a : Ans} {es : List Ev} {e : Err} (hs : step s (op, a) = some (s', es))
    (ht : Ev.threw e ∈ es) (he : e ≠ .fromMutex) : ∃ i l f, op = f i ∧ s[i]? = some (some l) ∧ Misuse l f e := by
  have lock_t : ∀ {l : Lock} {l' es}, doLock l a = some (l', es) → Ev.threw e ∈ es → (l.mutex = none ∧ e = .notPermitted) ∨
      (l.owns = true ∧ e = .wouldDeadlock ∧ ∃ m, l.mutex = some m) := by
    intro l l' es hl hm
    unfold doLock at hl
    split at hl
    · next h => cases hl; simp at hm; exact .inl ⟨h, hm⟩
    · next m h =>
      split at hl
      · next ho => cases hl; simp at hm; exact .inr ⟨ho, hm, m, h⟩
      · split at hl <;> cases hl <;> simp at hm; exact absurd hm he
  have try_t : ∀ {l : Lock} {l' es}, doTry l a = some (l', es) → Ev.threw e ∈ es → (l.mutex = none ∧ e = .notPermitted) ∨
      (l.owns = true ∧ e = .wouldDeadlock ∧ ∃ m, l.mutex = some m) := by
    intro l l' es hl hm
    unfold doTry at hl
    split at hl
    · next h => cases hl; simp at hm; exact .inl ⟨h, hm⟩
    · next m h =>
      split at hl
      · next ho => cases hl; simp at hm; exact .inr ⟨ho, hm, m, h⟩
      · split at hl <;> cases hl <;> simp at hm; exact absurd hm he
  have onObj_case : ∀ i f, onObj s i f = some (s', es) → ∃ l l', s[i]? = some (some l) ∧ f l = some (l', es) := by
    intro i f hf
    unfold onObj at hf
    split at hf
    · next l hi =>
      split at hf
      · cases hf
      · next l' es' hfl => cases hf; exact ⟨l, l', hi, hfl⟩
    · cases hf
  have cons_case : ∀ {r}, constructed s r = some (s', es) → ∃ l', r = some (l', es) := by
    intro r hc
    unfold constructed at hc
    split at hc
    · cases hc
    · split at hc <;> cases hc <;> exact ⟨_, rfl⟩
  have conv_case : ∀ {mode k₂} {l : Lock} {n l' es}, convert mode k₂ l a = some (n, l', es) → Ev.threw e ∉ es := by
    intro mode k₂ l n l' es hc hm
    unfold convert at hc
    split at hc <;> split at hc <;> (try split at hc) <;> (try split at hc) <;> cases hc <;> simp at hm <;> exact he hm
  have destroyed_no : ∀ l : Lock, Ev.threw e ∉ destroyed l := by
    intro l; unfold destroyed; split <;> (try split) <;> simp
  cases op with
  | ctorDefault k => cases hs; simp at ht
  | ctorDefer k m => cases hs; simp at ht
  | ctorAdopt k m => cases hs; simp at ht
  | ctorLock k m =>
    obtain ⟨l', hl⟩ := cons_case hs
    rcases lock_t hl ht with ⟨h, _⟩ | ⟨h, _⟩ <;> cases h
  | ctorTry k m =>
    obtain ⟨l', hl⟩ := cons_case hs
    rcases try_t hl ht with ⟨h, _⟩ | ⟨h, _⟩ <;> cases h
  | ctorTimed k m =>
    obtain ⟨l', hl⟩ := cons_case hs
    rcases try_t hl ht with ⟨h, _⟩ | ⟨h, _⟩ <;> cases h
  | ctorMove j => simp only [step] at hs; split at hs <;> cases hs; simp at ht
  | ctorConvert mode k₂ j =>
    simp only [step] at hs
    split at hs
    · split at hs
      · split at hs <;> cases hs <;> exact absurd ht (conv_case ‹_›)
      · cases hs
    · cases hs
  | destroy i =>
    simp only [step] at hs
    split at hs <;> cases hs
    exact absurd ht (destroyed_no _)
  | lock i =>
    obtain ⟨l, l', hi, hl⟩ := onObj_case i _ hs
    refine ⟨i, l, .lock, rfl, hi, ?_⟩
    rcases lock_t hl ht with ⟨h, rfl⟩ | ⟨h, rfl, m, hm⟩
    · exact .lockNoMutex h
    · exact .lockTwice hm h
  | tryLock i =>
    obtain ⟨l, l', hi, hl⟩ := onObj_case i _ hs
    refine ⟨i, l, .tryLock, rfl, hi, ?_⟩
    rcases try_t hl ht with ⟨h, rfl⟩ | ⟨h, rfl, m, hm⟩
    · exact .tryNoMutex h
    · exact .tryTwice hm h
  | timedLock i =>
    obtain ⟨l, l', hi, hl⟩ := onObj_case i _ hs
    refine ⟨i, l, .timedLock, rfl, hi, ?_⟩
    rcases try_t hl ht with ⟨h, rfl⟩ | ⟨h, rfl, m, hm⟩
    · exact .timedNoMutex h
    · exact .timedTwice hm h
  | unlock i =>
    obtain ⟨l, l', hi, hl⟩ := onObj_case i _ hs
    refine ⟨i, l, .unlock, rfl, hi, ?_⟩
    unfold doUnlock at hl
    split at hl
    · next h => cases hl; simp at ht; subst ht; exact .unlockNoMutex h
    · split at hl
      · next h => cases hl; simp at ht; subst ht; exact .unlockNotOwning (by simpa using h)
      · split at hl <;> cases hl <;> simp at ht; exact absurd ht he
  | release i =>
    simp only [step] at hs
    obtain ⟨l, l', hi, hl⟩ := onObj_case i _ hs
    simp only [Option.some.injEq, Prod.mk.injEq] at hl
    rw [← hl.2, List.mem_append] at ht
    split at ht <;> simp at ht
  | swap i j => simp only [step, swapObjs] at hs; split at hs <;> (try split at hs) <;> cases hs; simp at ht
  | moveAssign i j => simp only [step, swapObjs] at hs; split at hs <;> (try split at hs) <;> cases hs; simp at ht
  | convertAssign i j =>
    simp only [step] at hs
    split at hs
    · split at hs
      · split at hs
        · cases hs
        · next hc => cases hs; exact absurd ht (conv_case hc)
        · next hc =>
          cases hs
          rw [List.mem_append] at ht
          rcases ht with ht | ht
          · exact absurd ht (conv_case hc)
          · exact absurd ht (destroyed_no _)
      · cases hs
    · cases hs
  | ownsLock i =>
    simp only [step] at hs
    obtain ⟨l, l', hi, hl⟩ := onObj_case i _ hs
    simp only [Option.some.injEq, Prod.mk.injEq] at hl
    rw [← hl.2] at ht; simp at ht
  | mutex i =>
    simp only [step] at hs
    obtain ⟨l, l', hi, hl⟩ := onObj_case i _ hs
    simp only [Option.some.injEq, Prod.mk.injEq] at hl
    rw [← hl.2] at ht; simp at ht

example : Misuse ⟨.shared, some 3, true⟩ .tryLock .wouldDeadlock := .tryTwice rfl rfl
example : step [some ⟨.shared, some 3, true⟩] (.tryLock 0, .yes) = some ([some ⟨.shared, some 3, true⟩], [.threw .wouldDeadlock]) := by
  decide

/-! ## C56: conversions -/

/-- What a converting constructor leaves behind, given the source `l` (at `j`) and the answer of the mutex. -/
inductive Converted (k : Kind) (l : Lock) : Ans → List Ev → Option Lock → Lock → Prop
  /-- ownership moves and changes its kind -/
  | moved {m} : l.owns = true → l.mutex = some m →
      Converted k l .yes [.converted l.kind k m] (some ⟨k, some m, true⟩) ⟨l.kind, none, false⟩
  /-- the attempt failed: the source keeps what it owns, the new object is empty -/
  | kept {m} : l.owns = true → l.mutex = some m → Converted k l .no [] (some ⟨k, none, false⟩) l
  /-- the mutex threw: no new object -/
  | threw {m} : l.owns = true → l.mutex = some m → Converted k l .throws [.threw .fromMutex] none l
  /-- nothing owned: only the reference to the mutex moves -/
  | reference {a} : l.owns = false → Converted k l a [] (some ⟨k, l.mutex, false⟩) ⟨l.kind, none, false⟩

theorem converted_of_convert {mode : Mode} {k : Kind} {l l' : Lock} {a : Ans} {n : Option Lock} {es : List Ev} (g : Good l)
    (hc : convert mode k l a = some (n, l', es)) : Converted k l a es n l' ∧ (mode = .plain → a = .no → l.owns = false) := by
  cases ho : l.owns with
  | false =>
    cases mode <;> simp [convert, ho] at hc <;> obtain ⟨rfl, rfl, rfl⟩ := hc <;> exact ⟨.reference ho, by simp⟩
  | true =>
    obtain ⟨m, hm⟩ := Option.ne_none_iff_exists'.mp (g ho)
    cases mode <;> cases a <;> simp [convert, ho, hm] at hc <;> obtain ⟨rfl, rfl, rfl⟩ := hc <;>
      exact ⟨by first | exact .moved ho hm | exact .kept ho hm | exact .threw ho hm, by simp⟩

/-- Every converting constructor moves the ownership entirely, or leaves the source as it was. -/
theorem C56_conversion {tr : List Ev} {s s' : St} {mode : Mode} {k : Kind} {j : Nat} {l : Lock} {a : Ans} {es : List Ev}
    (h : Exec step [] tr s) (hj : s[j]? = some (some l)) (hs : step s (.ctorConvert mode k j, a) = some (s', es)) :
    ∃ n l', Converted k l a es n l' ∧ s'[j]? = some (some l') ∧ s'[s.length]? = n.map some := by
  have hlt : j < s.length := by
    rcases Nat.lt_or_ge j s.length with h | h
    · exact h
    · rw [List.getElem?_eq_none h] at hj; cases hj
  simp only [step, hj] at hs
  split at hs
  · split at hs
    · cases hs
    · next l' es' hc =>
      cases hs
      refine ⟨_, _, (converted_of_convert ((inv_exec h).1 j l hj) hc).1, get_set_self hj, ?_⟩
      rw [List.getElem?_eq_none (by simp)]; rfl
    · next n l' es' hc =>
      cases hs
      refine ⟨_, _, (converted_of_convert ((inv_exec h).1 j l hj) hc).1, ?_, ?_⟩
      · rw [List.getElem?_append_left (by simpa using hlt)]; exact get_set_self hj
      · rw [List.getElem?_append_right (by simp)]; simp
  · cases hs

/-- Assignment from another kind: in addition the ownership the target had before is released. -/
theorem C56_assignment {tr : List Ev} {s s' : St} {i j : Nat} {old l : Lock} {a : Ans} {es : List Ev}
    (h : Exec step [] tr s) (hi : s[i]? = some (some old)) (hj : s[j]? = some (some l))
    (hs : step s (.convertAssign i j, a) = some (s', es)) :
    ∃ n l' es', Converted old.kind l a es' n l' ∧ s'[j]? = some (some l') ∧
      (∀ x, n = some x → s'[i]? = some (some x) ∧ ∃ es'', es = es' ++ es'' ∧
        ((∃ m, old.owns = true ∧ old.mutex = some m ∧ es'' = [.released old.kind m]) ∨ (old.owns = false ∧ es'' = []))) ∧
      (n = none → s' = s ∧ es = es') := by
  simp only [step, hi, hj] at hs
  split at hs
  · next hconv =>
    have hij : i ≠ j := by
      rintro rfl
      rw [hi] at hj
      cases hj
      cases hk : old.kind <;> simp [hk, convertible] at hconv
    split at hs
    · cases hs
    · next l' es' hc =>
      cases hs
      obtain ⟨_, _, _, _, _, h6⟩ := convert_net ((inv_exec h).1 j l hj) hc
      refine ⟨_, _, _, (converted_of_convert ((inv_exec h).1 j l hj) hc).1, get_set_self hj, by simp, fun _ => ⟨?_, rfl⟩⟩
      rw [(h6 rfl).1]; exact set_self hj
    · next n l' es' hc =>
      cases hs
      refine ⟨_, _, _, (converted_of_convert ((inv_exec h).1 j l hj) hc).1, ?_, ?_, by simp⟩
      · rw [get_set_ne hij]; exact get_set_self hj
      · intro x hx
        cases hx
        refine ⟨get_set_self ((get_set_ne (Ne.symm hij)).trans hi), _, rfl, ?_⟩
        cases ho : old.owns with
        | false => exact .inr ⟨rfl, by simp [destroyed, ho]⟩
        | true =>
          obtain ⟨m, hm⟩ := Option.ne_none_iff_exists'.mp ((inv_exec h).1 i old hi ho)
          exact .inl ⟨m, rfl, hm, by simp [destroyed, ho, hm]⟩
  · cases hs

/-- A shared lock on one mutex is assigned a unique lock on another one. -/
example : ∃ tr s s' es, Exec step [] tr s ∧ s[0]? = some (some ⟨.shared, some 3, true⟩) ∧ s[1]? = some (some ⟨.unique, some 4, true⟩) ∧
    step s (.convertAssign 0 1, .yes) = some (s', es) :=
  ⟨_, _, _, _, exec_of_run (r := (_, _)) (ls := [(.ctorLock .shared 3, .yes), (.ctorLock .unique 4, .yes)]) rfl, rfl, rfl, rfl⟩

/-- A plain conversion of an owning lock either succeeds or throws; it does not silently fail. -/
theorem C56_plain_never_fails {tr : List Ev} {s : St} {k : Kind} {j : Nat} {l : Lock} (h : Exec step [] tr s)
    (hj : s[j]? = some (some l)) (ho : l.owns = true) : step s (.ctorConvert .plain k j, .no) = none := by
  obtain ⟨m, hm⟩ := Option.ne_none_iff_exists'.mp ((inv_exec h).1 j l hj ho)
  simp [step, hj, convert, ho, hm]

example : ∃ tr s, Exec step [] tr s ∧ s[0]? = some (some ⟨.shared, some 7, true⟩) ∧
    (step s (.ctorConvert .try_ .unique 0, .no)).isSome = true ∧ (step s (.ctorConvert .timed .upgrade 0, .yes)).isSome = true :=
  ⟨_, _, exec_of_run (ls := [(.ctorLock .shared 7, .yes)]) rfl, by decide, by decide, by decide⟩

end Verif.Locks
